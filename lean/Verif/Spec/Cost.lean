import Verif.Spec.Trace

/-!
# Specification: how much of a table an operation has to look at
-/

namespace Spec

/-- Is the key within the key bounds? -/
def Range.hasKey (q : Range) (k : Nat) : Bool := q.minKey.all (fun b => b ≤ k) && q.maxKey.all (fun b => k ≤ b)

/-- Number of pages that hold a record whose key is within the key bounds. -/
def pagesHit (q : Range) (pages : List (List Rec)) : Nat := pages.countP fun pg => pg.any fun r => q.hasKey r.1

/-- Page reads that are enough for an operation: one for an insert (to check the order), `look` for a lookup, one for every
page of the file for a scan. -/
def opReads (look pages : Nat) : Op → Nat
  | .put _ _ => 1
  | .flush => 0
  | .get _ => look
  | .scan _ => pages

/-- Page reads that are enough for a list of operations. -/
def totalReads (look pages : Nat) (ops : List Op) : Nat := (ops.map (opReads look pages)).sum

end Spec
