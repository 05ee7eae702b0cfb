/-!
# Specification: what a query by data value means, and what a sound bitmap index must satisfy
-/

namespace Spec

/-- The value satisfies the (inclusive, possibly absent) bounds. -/
def inRange (min max : Option Int) (v : Int) : Prop :=
  (∀ lo, min = some lo → lo ≤ v) ∧ (∀ hi, max = some hi → v ≤ hi)

/-- Two bitmaps of `w` bits have a common bit (what `bitmapOverlap`, embedDB.c:79-85, computes byte by byte). -/
def overlap {w : Nat} (a b : BitVec w) : Prop := ∃ i : Nat, a.getLsbD i = true ∧ b.getLsbD i = true

end Spec
