import Verif.Spec.Trace

/-!
# Specification: any number of iterators and lookups on an unchanging table

Each open iterator has its own list of rows still to come; a `next` of iterator `i` takes one from list `i` and from no
other.
-/

namespace Spec

/-- Read operations; iterators are named by numbers. -/
inductive ROp where
  | get (key : Nat)
  | opn (i : Nat) (q : Range)
  | nxt (i : Nat)

/-- Observed results. -/
inductive ROut where
  | got (o : Out)
  | opened
  /-- `embedDBNext` returned 1 with this record, or 0 -/
  | row (r : Option Rec)

/-- Set one value of a function. -/
def setAt {α : Type} (f : Nat → α) (i : Nat) (a : α) : Nat → α := fun j => if j = i then a else f j

/-- Every observation is the right one: `rs` are the records of the table, `pend i` the rows iterator `i` has not yet
returned (`none`: not open; using it then is not allowed). -/
def ReadRun (rs : List Rec) (cmp : List UInt8 → List UInt8 → Int) :
    (Nat → Option (List Rec)) → List (ROp × Option ROut) → Prop
  | _, [] => True
  | pend, (.get k, o) :: t => o = some (.got (answer rs k)) ∧ ReadRun rs cmp pend t
  | pend, (.opn i q, o) :: t => o = some .opened ∧ ReadRun rs cmp (setAt pend i (some (scan cmp q rs))) t
  | pend, (.nxt i, o) :: t => match pend i with
    | none => True
    | some [] => o = some (.row none) ∧ ReadRun rs cmp pend t
    | some (r :: l) => o = some (.row (some r)) ∧ ReadRun rs cmp (setAt pend i (some l)) t

end Spec
