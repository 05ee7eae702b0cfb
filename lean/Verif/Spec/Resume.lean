import Verif.Spec.Ring

/-!
# Specification: a ring taken up again

Judged on all operations that ever reached the device and on what the file holds.
-/

namespace Spec

open EDB (Ev Page)

/-- With the counters `next` (number of the next page) and `avail` (pages that can be written before the next erase) the ring
of `N` pages in blocks of `B` is continued where it stopped: the numbers go on after those of the pages written, every page
not counted as available is in the file, erasing will start at a block boundary, and no more than one block is given up for
it. -/
structure Resumes (N B : Nat) (log : List Ev) (file : Nat → Option Page) (next avail : Nat) : Prop where
  goesOn : next = (writes log).length
  filled : N ≤ next + avail
  block : B ∣ next + avail
  spare : next + avail = N ∨ avail ≤ B
  held : ∀ l ph p, (writes log)[l]? = some (ph, p) → next + avail ≤ l + N → ph = l % N ∧ file ph = some p

end Spec
