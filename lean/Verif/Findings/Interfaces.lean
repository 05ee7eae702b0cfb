import Verif.Props.Interfaces

/-!
# Properties of the file interfaces that are false of the code
-/

namespace EDB

open Spec (Log Op Out PageStore pagesIn)

/-! ## C51 -/

/-- C51 is false for files of 4 GiB and more: the byte offset is a 32-bit product, so with 512-byte pages writing page 8388608
overwrites page 0 of any file, and reading page 8388608 returns page 0. -/
theorem C51_false_offset (f bs buf : List Byte) :
    fileWrite f bs 8388608 512 = fileWrite f bs 0 512 ∧ fileRead f buf 8388608 512 = fileRead f buf 0 512 := ⟨rfl, rfl⟩

/-- A page that was never written can be read after a later page was written: it contains zeros. -/
theorem C51_false_gap : fileRead [] [9, 9, 9, 9] 0 4 = ([9, 9, 9, 9], 0) ∧
    fileRead (fileWrite [] [1, 2, 3, 4] 1 4) [9, 9, 9, 9] 0 4 = ([0, 0, 0, 0], 1) := by decide +kernel

/-- A read that fails because the last page is incomplete changes the buffer. -/
theorem C51_false_torn : fileRead [1, 2, 3, 4, 5] [9, 9, 9, 9] 1 4 = ([5, 9, 9, 9], 0) := by decide +kernel

/-! ## C52 -/

/-- C52 is false: a page write that the card does not accept is reported as a success, for every file and page inside it. -/
theorem C52_false_write {sz : Nat} {f : SdFile} {bs : List Byte} {n : Nat} (hn : sz * n < 2 ^ 32) (hk : sz * n ≤ f.bytes.length) :
    (sdWrite f bs n sz fun _ => false).2 = 1 ∧ (sdWrite f bs n sz fun _ => false).1.bytes = f.bytes := by
  unfold sdWrite SdFile.seek byteOff
  rw [Nat.mod_eq_of_lt hn]
  simp only [if_neg (Nat.not_lt.mpr hk), if_pos hk, SdFile.put, Bool.false_eq_true, if_false, if_true, and_self]

/-- Where the function does report a failure it returns -1, which the library takes for success. -/
theorem C52_false_code : (sdWrite ⟨[], 0⟩ [1, 2, 3, 4] 1 4 fun _ => false).2 = -1 ∧
    tookPlace (sdWrite ⟨[], 0⟩ [1, 2, 3, 4] 1 4 fun _ => false).2 = true := by decide +kernel

/-- Reading a page behind the end of the file succeeds and returns another page: the seek fails, and the page after the one read last is
returned. -/
theorem C52_false_read :
    let f : SdFile := ⟨[1, 1, 1, 1, 2, 2, 2, 2], 0⟩
    let g := (sdRead f [9, 9, 9, 9] 0 4).1
    (sdRead f [9, 9, 9, 9] 0 4).2 = ([1, 1, 1, 1], 1) ∧ (sdRead g [9, 9, 9, 9] 7 4).2 = ([2, 2, 2, 2], 1) ∧
    pagesIn 4 f.bytes 7 = none := by decide +kernel

/-! ## C53 -/

/-- A table created with EMBEDDB_RESET_DATA on a device that still shows the pages of an earlier file, as on dataflash, where opening
a file anew does not clear it (`dfOpen`). -/
def Data.over (c : Cfg) (old : Nat → Option Page) : Data :=
  { Data.fresh c (fun _ => 0) fun _ => (0, 0) with dev := ⟨old, [], 0⟩ }

/-- The device after keys 1 to 6 were inserted and flushed, three pages. -/
def oldTable : Dev :=
  match runOps demo demo0 noIdx (((List.range 6).map fun i => .put (i + 1) (dat (.ofNat i))) ++ [.flush]) with
  | .ok (d, _) => d.dev
  | _ => ⟨fun _ => none, [], 0⟩

/-- C53 is false: after a reset one record with key 1 is inserted and flushed.  Reopening finds three pages, and the records of the
old table are back: key 3, which was never inserted since the reset, is found. -/
theorem C53_false_reset (chip : Chip) : dfOpen chip = (chip, 1) ∧
    ((runOps demo (Data.over demo oldTable.file) noIdx [.put 1 (dat 9), .flush]).check fun (d, _) =>
      d.next = 1 ∧ (recover demo d.dev (fun _ => 0) fun _ => (0, 0)).2 = 0 ∧
      (recover demo d.dev (fun _ => 0) fun _ => (0, 0)).1.next = 3 ∧
      (get demo (recover demo d.dev (fun _ => 0) fun _ => (0, 0)).1 3).check fun r => r.2 = (0, some (dat 2))) = true := by
  refine ⟨rfl, ?_⟩
  decide +kernel

end EDB
