import Verif.Spec.Log

/-!
# Specification: statistics about the records of a page
-/

namespace Spec

/-- A comparison function that is a total preorder on values of `n` bytes. -/
structure TotalOrder (n : Nat) (cmp : List UInt8 → List UInt8 → Int) : Prop where
  refl : ∀ a, a.length = n → cmp a a = 0
  flip : ∀ a b, a.length = n → b.length = n → (0 < cmp a b ↔ cmp b a < 0)
  trans : ∀ a b c, a.length = n → b.length = n → c.length = n → cmp a b ≤ 0 → cmp b c ≤ 0 → cmp a c ≤ 0

/-- The four statistics describe the records. -/
structure Stats (cmp : List UInt8 → List UInt8 → Int) (rs : List Rec) (minKey maxKey : Nat)
    (minData maxData : List UInt8) : Prop where
  minKey : (∃ r ∈ rs, r.1 = minKey) ∧ ∀ r ∈ rs, minKey ≤ r.1
  maxKey : (∃ r ∈ rs, r.1 = maxKey) ∧ ∀ r ∈ rs, r.1 ≤ maxKey
  minData : (∃ r ∈ rs, r.2 = minData) ∧ ∀ r ∈ rs, cmp minData r.2 ≤ 0
  maxData : (∃ r ∈ rs, r.2 = maxData) ∧ ∀ r ∈ rs, 0 ≤ cmp maxData r.2

end Spec
