import Verif.Props.Formatted

/-!
# Findings: devices whose pages can be read before they are written (C65)
-/

namespace EDB

/-- A table with blocks of three pages, nine pages in all, and its state after one page was written on an erased chip. -/
def oddTable : Cfg := { demo with N := 9, B := 3 }

/-- C65 is false for blocks of three pages on an erased chip: after one page was written, recovery takes the blank page that starts the
second block for the oldest page of the table, since its number 0xFFFFFFFF leaves remainder 3 modulo 9.  The smallest page number becomes
4294967295, and the record with key 1 is not found. -/
theorem C65_false_odd : ((runOps oddTable (Data.freshOn (blankChip 9 255) oddTable (fun _ => 0) fun _ => (0, 0)) noIdx
      [.put 1 (dat 1), .put 2 (dat 2), .flush]).check fun (d, _) =>
    d.next = 1 ∧ d.min = 0 ∧
    (reopenOn (blankChip 9 255) oddTable d.dev d.dev.log.length (fun _ => 0) fun _ => (0, 0)).2 = 0 ∧
    (reopenOn (blankChip 9 255) oddTable d.dev d.dev.log.length (fun _ => 0) fun _ => (0, 0)).1.next = 1 ∧
    (reopenOn (blankChip 9 255) oddTable d.dev d.dev.log.length (fun _ => 0) fun _ => (0, 0)).1.min = 4294967295 ∧
    (get oddTable (reopenOn (blankChip 9 255) oddTable d.dev d.dev.log.length (fun _ => 0) fun _ => (0, 0)).1 1).check fun r => r.2.1 = -1) = true := by
  decide +kernel

/-- A table with blocks of two pages, sixteen pages in all. -/
def evenTable : Cfg := { demo with N := 16, B := 2 }

/-- C65 is false for a chip that never held a table and is opened without EMBEDDB_RESET_DATA: looking for a table leaves the blank page 4 in the
read cache, and writing page 4 later does not remove it.  After ten inserts and a flush, key 9, stored on page 4, is not found; after a
lookup of another key it is. -/
theorem C65_false_stale : ((runOps evenTable
      (reopenOn (blankChip 16 255) evenTable ⟨blankChip 16 255, [], 0⟩ 0 (fun _ => 0) fun _ => (0, 0)).1 noIdx
      (((List.range 10).map fun i => .put (i + 1) (dat (.ofNat i))) ++ [.flush])).check fun (d, _) =>
    d.next = 5 ∧ d.min = 0 ∧
    ((get evenTable d 9).check fun r => r.2.1 = -1) ∧
    (get evenTable d 1).check fun r => r.2.1 = 0 ∧ (get evenTable r.1 9).check fun r => r.2 = (0, some (dat 8))) = true := by
  decide +kernel

end EDB
