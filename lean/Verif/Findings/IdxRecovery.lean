import Verif.Findings.Index
import Verif.Props.IdxRecovery

/-!
# The data index after reopening: counterexamples to C54

* Bitmaps still in the index write buffer are lost at a power failure, and `embedDBInitIndex` starts a new index page at
  once, while `embedDBNext` computes the place of a bitmap from the number of the data page: from then on index pages describe other data pages than the scan
  believes, and records are hidden.
* The same after an orderly flush, close and reopening.
* After a power failure in the middle of a block of the index file, the recovered number of free index pages counts pages that were
  never erased, or erases start in the middle of a block and run past the end of the file.
* `embedDBPut` does not flush the data file before it writes an index page.  If the index page reaches the medium and the data pages it
  describes do not, it later describes other data pages.
-/

namespace EDB

open Spec (Op Out Range Log)

/-- Reopen after a history (everything written is on the device), then continue. -/
def secondLife (c : Cfg) (ops : List Op) : Option (Data × Idx) :=
  match runOpsX c (Data.fresh c (fun _ => 0) (fun _ => (0, 0))) (Idx.fresh c (fun _ => 0)) ops with
  | .ok (d, x) =>
    let r := reopenX c d.dev x.dev d.dev.log.length x.dev.log.length (fun _ => 0) (fun _ => (0, 0)) (fun _ => 0)
    if r.2.2 = 0 then some (r.1, r.2.1) else none
  | _ => none

/-- The output of a scan after a history, a reopening and a second history. -/
def scanSecond (c : Cfg) (ops ops' : List Op) (q : Range) : Option (List Spec.Rec) :=
  (secondLife c ops).bind fun r => scanAfter c r.1 r.2 ops' q

/-- The storage operations on the index file after a history, a reopening and a second history: page writes (place, number of the page)
and erases (first page, end). -/
def idxEvents (c : Cfg) (ops ops' : List Op) : Option (List (Nat × Nat ⊕ Nat × Nat)) :=
  (secondLife c ops).bind fun r =>
    match runOpsX c r.1 r.2 ops' with
    | .ok (_, x) => some (x.dev.log.map fun | .write i p => .inl (i, pageId p) | .erase a b => .inr (a, b))
    | _ => none

/-- `demoIdx` with a data file of 20 pages. -/
def roomy : Cfg := { demoIdx with N := 20 }

/-- C54 is false when a power failure loses bitmaps that were still in memory: 13 inserts (6 data pages stored, their bitmaps in the index
write buffer), power failure, reopening, 23 more inserts, which complete an index page.  The twelve old records match the
bounds and are still returned by an unfiltered scan; the filtered scan returns none of them.  A scan right after the reopening does
return them. -/
theorem C54_false_hidden :
    scanSecond roomy (putsOf 1 14 35) (putsOf 14 37 10) warm = some [] ∧
    ((scanSecond roomy (putsOf 1 14 35) (putsOf 14 37 10) allRows).map fun rs => (rs.map Prod.fst).take 12) =
      some [1, 2, 3, 4, 5, 6, 7, 8, 9, 10, 11, 12] ∧
    ((scanSecond roomy (putsOf 1 14 35) [] warm).map fun rs => rs.map Prod.fst) = some [1, 2, 3, 4, 5, 6, 7, 8, 9, 10, 11, 12] := by
  refine ⟨?_, ?_, ?_⟩ <;> decide +kernel

/-- C54 is false without any power failure: 12 inserts, a flush, reopening, three more inserts.  The three records match
the bounds, an unfiltered scan returns them, the filtered scan does not. -/
theorem C54_false_flushed :
    scanSecond roomy (putsOf 1 13 10 ++ [.flush]) (putsOf 13 16 35) warm = some [] ∧
    scanSecond roomy (putsOf 1 13 10 ++ [.flush]) (putsOf 13 16 35) ⟨some 13, none, none, none⟩ =
      some [(13, dat 35), (14, dat 35), (15, dat 35)] := by
  constructor <;> decide +kernel

/-- C54 is false after wrap-around on storage that must be erased before it is written: the index file (4 pages, blocks of 2) has wrapped and
contains pages 4, -, 2, 3 (place 1 erased).  The reopened table believes places 1, 2 and 3 are free and writes pages 6 and 7 over pages
2 and 3 without an erase. -/
theorem C54_false_unerased :
    idxEvents { demoIdx with eraseFx := fun _ => some fun _ => 255 } (putsOf 1 104 10) (putsOf 105 170 10) =
      some [.inl (0, 0), .inl (1, 1), .inl (2, 2), .inl (3, 3), .inr (0, 2), .inl (0, 4), .inl (1, 5), .inl (2, 6), .inl (3, 7)] := by
  decide +kernel

/-- The same with an erase that does nothing (desktop): the pages found are 4, 1, 2, 3; from then on blocks are erased from the middle (1 to
3), and the next erase covers page 4 of a file of 4 pages. -/
theorem C54_false_erase_range :
    idxEvents demoIdx (putsOf 1 104 10) (putsOf 105 190 10) =
      some [.inl (0, 0), .inl (1, 1), .inl (2, 2), .inl (3, 3), .inr (0, 2), .inl (0, 4), .inr (1, 3), .inl (1, 5), .inl (2, 6), .inr (3, 5),
        .inl (3, 7), .inl (0, 8)] := by
  decide +kernel

/-- The output of a scan after a history, a power failure that leaves the first `k` operations on the data file and the first `j` on the
index file, whatever their order was, a reopening and a second history. -/
def scanLost (c : Cfg) (ops : List Op) (k j : Nat) (ops' : List Op) (q : Range) : Option (List Spec.Rec) :=
  match runOpsX c (Data.fresh c (fun _ => 0) (fun _ => (0, 0))) (Idx.fresh c (fun _ => 0)) ops with
  | .ok (d, x) =>
    let r := reopenX c d.dev x.dev k j (fun _ => 0) (fun _ => (0, 0)) (fun _ => 0)
    if r.2.2 = 0 then scanAfter c r.1 r.2.1 ops' q else none
  | _ => none

/-- `Moment` is needed in C54, and the code does not ensure it on a medium that holds writes back (C78): 23 inserts write eleven data pages
and one index page without a flush between them (embedDB.c:1029, 1039).  If the index page and only four of the data pages have reached
the medium when power fails, five records inserted after the reopening match the bounds and are returned by an unfiltered scan, but the
filtered scan returns none of them.  It returns them if the index page has not reached the medium. -/
theorem C54_false_order :
    scanLost roomy (putsOf 1 24 10) 4 1 (putsOf 31 36 35) warm = some [] ∧
    ((scanLost roomy (putsOf 1 24 10) 4 1 (putsOf 31 36 35) ⟨some 31, none, none, none⟩).map fun rs => rs.map Prod.fst) =
      some [31, 32, 33, 34, 35] ∧
    ((scanLost roomy (putsOf 1 24 10) 4 0 (putsOf 31 36 35) warm).map fun rs => rs.map Prod.fst) = some [31, 32, 33, 34, 35] := by
  refine ⟨?_, ?_, ?_⟩ <;> decide +kernel

end EDB
