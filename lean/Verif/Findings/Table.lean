import Verif.Props.History

/-!
# Table properties that are false of the code

Each theorem runs the model on a concrete configuration and history that a user may legally use.
-/

namespace EDB

open Spec (Log Op Out)

/-- A client that looks up key 1 (which puts storage page 0 into the read cache), then inserts until storage page 0 is
overwritten by page 4, then looks up key 9. -/
def staleOps : List Op :=
  (demoPuts.take 3) ++ [.get 1] ++ (demoPuts.drop 3) ++ [.get 9]

/-- C02 is false: `readPage` trusts `bufferedPageId` although `writePage` has overwritten that storage page.  All
inserts return 0, key 9 is on a retained page, and its lookup returns -1. -/
theorem C02_false_stale_cache :
    let h := history demo demo0 noIdx staleOps
    let l := Spec.logAfter demo.maxRec Log.empty h
    h.getLast? = some (.get 9, some (.got (-1) none)) ∧
      (9, dat 8) ∈ l.live (Spec.dropped demo.N demo.B l.pages.length) := by
  decide +kernel

/-- … although the configuration and the client satisfy every other hypothesis of `C02_wrapped_partial`. -/
theorem C02_false_stale_cache_client : demo.Ok 1000 ∧ Bounds demo 0 1000 staleOps.length ∧ demo.maxRec ≤ 255 ∧
    (Spec.offered staleOps).Pairwise (· < ·) :=
  ⟨demo_ok _, demo_bounds (by decide) (by decide), by decide, by decide +kernel⟩

/-- C05/C06 are false in the same way: after some more inserts an unbounded scan returns the records 1 and 2, dropped
long ago, in the place of 9 and 10. -/
theorem C05_false_stale_cache :
    let puts (a b : Nat) : List Op := (List.range (b - a)).map fun i => .put (a + i) (dat 7)
    let h := history demo demo0 noIdx (puts 1 4 ++ [.get 1] ++ puts 4 17 ++ [.scan allRows])
    let l := Spec.logAfter demo.maxRec Log.empty h
    h.getLast? = some (.scan allRows, some (.rows
      [(1, dat 7), (2, dat 7), (11, dat 7), (12, dat 7), (13, dat 7), (14, dat 7), (15, dat 7), (16, dat 7)])) ∧
    l.live (Spec.dropped demo.N demo.B l.pages.length) =
      [(9, dat 7), (10, dat 7), (11, dat 7), (12, dat 7), (13, dat 7), (14, dat 7), (15, dat 7), (16, dat 7)] := by
  decide +kernel

/-- Eight-byte keys, two records per 34-byte page. -/
def bigCfg : Cfg := { demo with keySize := 8, pageSize := 34, N := 64, splSize := 8 }

theorem bigCfg_ok (K : Nat) : bigCfg.Ok K where
  B0 := by decide
  dvd := by decide
  two := by decide
  page := by decide
  cap := by decide
  cap16 := by decide
  spl := by decide
  layout := ⟨by decide, by decide, fun _ _ h => h⟩
  cmp := cmpOk_cmp3 K
  plain := rfl
  spline := rfl
  io _ := rfl

/-- Ten ascending keys spread over the range of 8-byte keys. -/
def bigKeys : List Nat := [1, 6, 12, 14, 17, 22, 28, 33, 36, 40].map (· * 2 ^ 58)

/-- C01 is false without the bound on the products (`Bounds.prod`): the spline multiplies key and page distances in 64
bits.  With 8-byte keys far apart the products wrap, and a record inserted into a table that never wrapped is reported
as absent. -/
theorem C01_false_overflow :
    let h := history bigCfg (Data.fresh bigCfg (fun _ => 0) (fun _ => (0, 0))) noIdx
      (bigKeys.map (fun k => .put k (dat 1)) ++ [.get (28 * 2 ^ 58)])
    (∀ k ∈ bigKeys, (Op.put k (dat 1), some (.code 0)) ∈ h) ∧ 28 * 2 ^ 58 ∈ bigKeys ∧
      h.getLast? = some (.get (28 * 2 ^ 58), some (.got (-1) none)) := by
  decide +kernel

/-- … although the configuration, the client and every other bound are as in `C01_unwrapped_partial`. -/
theorem C01_false_overflow_client : bigCfg.Ok (2 ^ 64) ∧ bigCfg.maxRec ≤ 255 ∧ 2 ^ 64 ≤ 256 ^ bigCfg.keySize ∧
    bigKeys.Pairwise (· < ·) ∧ (∀ k ∈ bigKeys, k < 2 ^ 64) ∧ bigKeys.length < bigCfg.N :=
  ⟨bigCfg_ok _, by decide, by decide, by decide, by decide, by decide⟩

/-- C03 is false: after a flush of a partial page the order check compares with the bytes of an unused record slot
(here the fill pattern 01010101 of `initBufferPage`), so a duplicate key is accepted. -/
theorem C03_false_duplicate :
    history demo demo0 noIdx [.put 20000000 (dat 1), .flush, .put 20000000 (dat 2)] =
      [(.put 20000000 (dat 1), some (.code 0)), (.flush, some (.code 0)), (.put 20000000 (dat 2), some (.code 0))] := by
  decide +kernel

/-- … a smaller key too … -/
theorem C03_false_descending :
    history demo demo0 noIdx [.put 20000000 (dat 1), .flush, .put 18000000 (dat 2)] =
      [(.put 20000000 (dat 1), some (.code 0)), (.flush, some (.code 0)), (.put 18000000 (dat 2), some (.code 0))] := by
  decide +kernel

/-- … and a larger key is refused. -/
theorem C03_false_refused :
    history demo demo0 noIdx [.put 5 (dat 1), .flush, .put 7 (dat 2)] =
      [(.put 5 (dat 1), some (.code 0)), (.flush, some (.code 0)), (.put 7 (dat 2), some (.code 1))] := by
  decide +kernel

/-- C10 is false for small pages: with 22-byte pages (two 8-byte records fit) `initBufferPage` writes the fill pattern
into bytes 22 to 25, behind the page. -/
theorem C10_false_tiny_page : let c : Cfg := { demo with pageSize := 22 }
    c.maxRec = 2 ∧ initPage c c.pageSize ≠ 0 := by
  decide +kernel

/-- The demo table on a device whose first write fails. -/
def flaky : Cfg := { demo with ioOk := fun n => n != 0 }

/-- C42 is false for inserts: the third insert writes the first page, the device refuses, the insert returns 0, and the
two records of the page are gone. -/
theorem C42_false_put :
    history flaky demo0 noIdx [.put 1 (dat 1), .put 2 (dat 2), .put 3 (dat 3), .flush, .scan allRows] =
      [(.put 1 (dat 1), some (.code 0)), (.put 2 (dat 2), some (.code 0)), (.put 3 (dat 3), some (.code 0)),
       (.flush, some (.code 0)), (.scan allRows, some (.rows []))] := by
  decide +kernel

/-- A failed flush returns -1 and keeps the write buffer, but has already consumed a page number: after a second,
successful flush the page is stored where no scan finds it. -/
theorem C42_false_retry :
    history flaky demo0 noIdx [.put 1 (dat 1), .flush, .flush, .scan allRows] =
      [(.put 1 (dat 1), some (.code 0)), (.flush, some (.code (-1))), (.flush, some (.code 0)),
       (.scan allRows, some (.rows []))] := by
  decide +kernel

/-- A larger table on a device that refuses its fourth write. -/
def hole : Cfg := { demo with N := 64, splSize := 16, ioOk := fun n => n != 3 }

/-- A refused write also hides neighbours of the lost page: `writePage` returns -1, which `indexPage` stores in the spline as
page number 2^32-1.  Of ten records, those of the refused page (70, 80) are lost, and 60 and 90, although stored, are not
found by their key. -/
theorem C42_false_neighbours :
    let puts := (List.range 10).map fun i => Spec.Op.put (10 * (i + 1)) (dat (UInt8.ofNat i))
    (history hole demo0 noIdx (puts ++ [.flush, .get 50, .get 60, .get 90, .get 100])).drop 11 =
      [(.get 50, some (.got 0 (some (dat 4)))), (.get 60, some (.got (-1) none)), (.get 90, some (.got (-1) none)),
       (.get 100, some (.got 0 (some (dat 9))))] := by
  decide +kernel

end EDB
