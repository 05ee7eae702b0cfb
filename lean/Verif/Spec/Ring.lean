import Verif.Spec.Wear

/-!
# Specification: a file used as a ring of erase blocks

Judged on the operations that reached the device and on what the file holds now, without looking at the library's counters.
-/

namespace Spec

open EDB (Ev Page)

/-- A file of `N` pages, made of blocks of `B` pages, was used as flash memory wants it: all accesses stay inside the file,
whole blocks are erased, every page is erased before it is written again, writing and erasing wear the pages evenly, and the
last `N - B` pages written are still there. -/
structure GoodRing (N B : Nat) (log : List Ev) (file : Nat → Option Page) : Prop where
  inside : ∀ ph p, Ev.write ph p ∈ log → ph < N
  blocks : ∀ lo hi, Ev.erase lo hi ∈ log → B ∣ lo ∧ hi = lo + B ∧ hi ≤ N
  erased : ErasedFirst (fun _ => False) log
  evenWrites : Even N (timesWritten log)
  evenErases : Even N (timesErased log)
  noSpare : ∀ ph, ph < N → timesErased log ph ≤ timesWritten log ph
  keeps : ∀ l ph p, (writes log)[l]? = some (ph, p) → (writes log).length + B ≤ l + N → file ph = some p

end Spec
