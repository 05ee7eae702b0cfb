import Verif.Spec.Device

/-!
# Specification: wear of a storage device

How often each page of a device was written and erased, judged on the history of its operations.
-/

namespace Spec

open EDB (Ev)

/-- How often page `ph` was written. -/
def timesWritten (log : List Ev) (ph : Nat) : Nat := (writes log).countP fun w => w.1 = ph

/-- How often page `ph` was erased. -/
def timesErased (log : List Ev) (ph : Nat) : Nat :=
  log.countP fun e => match e with
    | .erase lo hi => decide (lo ≤ ph ∧ ph < hi)
    | .write _ _ => false

/-- Used evenly: no page of a device with `N` pages is used more than once more than another. -/
def Even (N : Nat) (times : Nat → Nat) : Prop := ∀ i j, i < N → j < N → times i ≤ times j + 1

/-- Every page write goes to a page that was never written before or was erased since its last write, except that the `n`-th
write (counted from 0) is free if `exempt n`. -/
def ErasedFirstBut (exempt : Nat → Prop) (log : List Ev) : Prop :=
  ∀ before ph p after, log = before ++ Ev.write ph p :: after → ¬ exempt (writes before).length →
    ∀ a p' b, before = a ++ Ev.write ph p' :: b → ∃ lo hi, Ev.erase lo hi ∈ b ∧ lo ≤ ph ∧ ph < hi

end Spec
