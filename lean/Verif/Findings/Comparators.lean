import Verif.Props.Comparators

/-! # C31 is false for keys far apart: the signed subtraction overflows (undefined behaviour) -/

namespace EDB

/-- Full statement of C31 for `int32Comparator`. -/
def C31_int32_full : Prop :=
  ∀ a b : List Byte, a.length = 4 → b.length = 4 → NumericComparator int32Comparator a b

/-- Full statement of C31 for `int64Comparator`. -/
def C31_int64_full : Prop :=
  ∀ a b : List Byte, a.length = 8 → b.length = 8 → NumericComparator int64Comparator a b

/-- Witness: `2^31-1` against `-1`. -/
theorem C31_int32_false : ¬ C31_int32_full := by
  intro h
  have := h [0xff, 0xff, 0xff, 0x7f] [0xff, 0xff, 0xff, 0xff] rfl rfl
  have e : int32Comparator [0xff, 0xff, 0xff, 0x7f] [0xff, 0xff, 0xff, 0xff] = .ub := by rfl
  rw [NumericComparator, e] at this
  cases this

/-- Witness: `2^63-1` against `-1`. -/
theorem C31_int64_false : ¬ C31_int64_full := by
  intro h
  have := h [0xff, 0xff, 0xff, 0xff, 0xff, 0xff, 0xff, 0x7f] [0xff, 0xff, 0xff, 0xff, 0xff, 0xff, 0xff, 0xff] rfl rfl
  have e : int64Comparator [0xff, 0xff, 0xff, 0xff, 0xff, 0xff, 0xff, 0x7f]
      [0xff, 0xff, 0xff, 0xff, 0xff, 0xff, 0xff, 0xff] = .ub := by rfl
  rw [NumericComparator, e] at this
  cases this

/-- Exactly the pairs whose difference is not representable are affected. -/
theorem C31_int32_ub_iff (a b : List Byte) (ha : a.length = 4) (hb : b.length = 4) :
    int32Comparator a b = .ub ↔
      ¬ (-2 ^ 31 ≤ Spec.sval a - Spec.sval b ∧ Spec.sval a - Spec.sval b < 2 ^ 31) := by
  constructor
  · intro h hd
    have := C31_int32_partial a b ha hb hd
    rw [NumericComparator, h] at this
    cases this
  · intro hd
    unfold int32Comparator
    rw [List.take_of_length_le (by omega), List.take_of_length_le (by omega), leInt_eq a (by omega),
      leInt_eq b (by omega)]
    unfold subCmp
    rw [if_neg]
    simp only [fits, Bool.and_eq_true, decide_eq_true_eq]
    exact hd

end EDB
