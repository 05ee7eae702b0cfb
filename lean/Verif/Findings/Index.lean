import Verif.Props.Index
import Verif.Props.Stats

/-!
# The data index: counterexamples to C23 and C48

A scan with data bounds returns fewer records than the table retains:
* after a flush, because `embedDBFlush` writes a partly filled index page while `embedDBNext` looks up bitmap
  `pageNum % maxIdxRecordsPerPage` of index page `pageNum / maxIdxRecordsPerPage`;
* after the index file has wrapped, because `readIndexPage` serves index pages from a read buffer that nobody
  invalidates.
-/

namespace EDB

open Spec (Op Out Range Log)

/-- Data exactly 35. -/
def warm : Range := ⟨none, none, some (dat 35), some (dat 35)⟩

/-- Inserts of the keys `a .. b-1` with the same data. -/
def putsOf (a b : Nat) (v : UInt8) : List Op := (List.range (b - a)).map fun i => .put (a + i) (dat v)

/-- The output of a scan with the given bounds after a history (`none`: the history or the scan is undefined). -/
def scanAfter (c : Cfg) (d : Data) (x : Idx) (ops : List Op) (q : Range) : Option (List Spec.Rec) :=
  match runOpsX c d x ops with
  | .ok (d, x) =>
    match scanAll c d x q with
    | .ok (_, _, rs) => some rs
    | _ => none
  | _ => none

/-- C23 is false after a flush: the record with key 3 matches the bounds and is still in the write buffer, and the scan
does not return it (the same scan without data bounds does). Two records, a flush, one record. -/
theorem C23_false_flush :
    let ops := [.put 1 (dat 10), .put 2 (dat 10), .flush, .put 3 (dat 35)]
    ClientX demoIdx 0 100 (ops ++ [.scan warm]) ∧
    scanAfter demoIdx demoIdx0 demoIdxX0 ops allRows = some [(1, dat 10), (2, dat 10), (3, dat 35)] ∧
    scanAfter demoIdx demoIdx0 demoIdxX0 ops warm = some [] := by
  refine ⟨⟨by decide +kernel, ?_, ?_, ?_⟩, by decide +kernel, by decide +kernel⟩
  · intro k v h
    simp at h
    rcases h with ⟨rfl, rfl⟩ | ⟨rfl, rfl⟩ | ⟨rfl, rfl⟩ <;> exact ⟨by decide, by decide, rfl⟩
  · intro k h; simp at h
  · intro q h
    simp at h
    rw [h]
    exact ⟨by simp [warm], by simp [warm]⟩

/-- C23 is false after a flush also for records on a stored page: the bitmap of data page 1 is the first one
of index page 1, and the scan looks at the second one of index page 0. -/
theorem C23_false_flush_stored :
    let ops := putsOf 1 3 10 ++ [.flush] ++ putsOf 3 5 35 ++ [.flush]
    scanAfter demoIdx demoIdx0 demoIdxX0 ops allRows = some [(1, dat 10), (2, dat 10), (3, dat 35), (4, dat 35)] ∧
    scanAfter demoIdx demoIdx0 demoIdxX0 ops warm = some [] := by
  constructor <;> decide +kernel

/-- C23/C10 are false: a flush at the moment the index page is full copies a bitmap past the end of the index write
buffer (`maxIdxRecordsPerPage` bitmaps are only written out by the next `embedDBPut` that needs a new page, and
`embedDBFlush` does not check). 21 records, one flush. -/
theorem C23_false_flush_full :
    (match runOpsX demoIdx demoIdx0 demoIdxX0 (putsOf 1 22 10 ++ [.flush]) with | .ub => true | _ => false) = true ∧
    (match runOpsX demoIdx demoIdx0 demoIdxX0 (putsOf 1 21 10 ++ [.flush]) with | .ok _ => true | _ => false) = true := by
  constructor <;> decide +kernel

/-- C23 is false once the index file has wrapped: the earlier scan leaves an index page in the read buffer, the index
file wraps, and the slot of the buffered page now holds another page. The four records 97..100 are retained, match and
are not returned; without the earlier scan they are. -/
theorem C23_false_stale_index :
    (scanAfter demoIdx demoIdx0 demoIdxX0 (putsOf 1 26 10 ++ [.scan warm] ++ putsOf 26 104 35) warm).map
      (List.map Prod.fst) = some [101, 102, 103] ∧
    (scanAfter demoIdx demoIdx0 demoIdxX0 (putsOf 1 26 10 ++ putsOf 26 104 35) warm).map
      (List.map Prod.fst) = some [97, 98, 99, 100, 101, 102, 103] := by
  constructor <;> decide +kernel

/-! ## C48 -/

/-- A bitmap of 16 bytes (allowed: `bitmapSize` is any `int8_t`) together with the min/max fields, which start at offset
14 whatever the size of the bitmap. Six-byte header + 16 + 16, three records of 8 bytes. -/
def wide : Cfg := { demo with
  pageSize := 64, bitmapSize := 16, numIdx := 4, useIndex := true, useMaxMin := true, useBmap := true
  updBm := fun v b => (b.getD 0 0 ||| v.getD 0 0) :: b.tail, buildBm := fun _ _ => List.replicate 16 255 }

/-- C48 is false if the bitmap has more than 8 bytes: the header bitmap of a page with one record is not the bitmap of
that record (bytes 8.. hold the minimum and maximum key). -/
theorem C48_false :
    let p := appendRec wide (initPage wide) 5 (dat 3) 0
    wide.hdr = 38 ∧ wide.maxRec = 3 ∧
    hdrBm wide p = [3, 0, 0, 0, 0, 0, 0, 0, 5, 0, 0, 0, 5, 0, 0, 0] ∧
    hdrBm wide p ≠ wide.updBm (dat 3) (List.replicate 16 0) := by
  decide +kernel

/-- C48 is false if the bitmap has more than 8 bytes, even without min/max fields: `initBufferPage` puts the initial
minimum key into the bitmap, so the bitmap of an empty page is not empty. -/
theorem C48_false_initial :
    hdrBm { wide with useMaxMin := false } (initPage { wide with useMaxMin := false }) ≠ List.replicate 16 0 := by
  decide +kernel

end EDB
