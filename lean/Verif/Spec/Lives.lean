import Verif.Spec.Kept

/-!
# Specification: lives of tables whose variable data file wraps

The right result of an operation, judged on the records stored, the variable data inserted with them, and the keys whose
variable data is gone.
-/

namespace Spec

/-- The smallest key that may be inserted after an operation, if it was `Q` before. -/
def nextKey (Q : Nat) : VOp → Nat
  | .put k _ _ => k + 1
  | _ => Q

/-- Number of the first variable page whose data is delivered when the table is opened with `n` pages written: all are; or all
but those up to the oldest page counted as stored. -/
def firstGiven (N B n : Nat) : Nat := if firstKept N B n = 0 then 0 else firstKept N B n + 1

/-- The right result of an operation: an insert is accepted, or refused where C03 allows it; a flush succeeds; a lookup gives
the record as stored, and its variable data exactly as inserted, or code 1 exactly if it is gone. -/
def LifeAnswer (maxRec : Nat) (l : VLog) (live : List Rec) (gone : Nat → Prop) : VOp → VOut → Prop
  | .put _ _ _, o => o = .code 0 ∨ (o = .code 1 ∧ MayRefuse maxRec l.log)
  | .flush, o => o = .code 0
  | .get k, o => ∃ r out, o = .got r out ∧ Out.got r out = answer live k
  | .getVar k, o => KeptAnswer live l.var gone k o

end Spec
