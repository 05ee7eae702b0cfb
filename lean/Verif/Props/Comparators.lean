import Verif.Proofs.Num

/-!
# C31: supplied key comparators

The full statement ("for all keys") is false of the code: see `Verif.Findings.Comparators`.
-/

namespace EDB

/-- What C31 asks of a comparator: numeric three-way comparison of the two's complement values. -/
def NumericComparator (f : List Byte → List Byte → Res Int) (a b : List Byte) : Prop :=
  f a b = .ok (Spec.cmp3 (Spec.sval a) (Spec.sval b))

theorem subCmp_ok {w : Nat} {a b : Int} (h : fits w (a - b) = true) : subCmp w a b = .ok (Spec.cmp3 a b) := by
  unfold subCmp Spec.cmp3
  rw [if_pos h]
  simp only
  by_cases h1 : a < b
  · rw [if_pos (by omega), if_pos h1]
  · rw [if_neg (by omega), if_neg h1]
    by_cases h2 : b < a
    · rw [if_pos (by omega), if_pos h2]
    · rw [if_neg (by omega), if_neg h2]

/-- C31, 32-bit: numeric order whenever the difference of the two keys is representable in 32 bits.
Missing: pairs further apart than that (`C31_int32_false`). -/
theorem C31_int32_partial (a b : List Byte) (ha : a.length = 4) (hb : b.length = 4)
    (hd : -2 ^ 31 ≤ Spec.sval a - Spec.sval b ∧ Spec.sval a - Spec.sval b < 2 ^ 31) :
    NumericComparator int32Comparator a b := by
  unfold NumericComparator int32Comparator
  rw [List.take_of_length_le (by omega), List.take_of_length_le (by omega), leInt_eq a (by omega),
    leInt_eq b (by omega)]
  apply subCmp_ok
  simp only [fits, Bool.and_eq_true, decide_eq_true_eq]
  exact hd

/-- C31, 64-bit, same restriction. -/
theorem C31_int64_partial (a b : List Byte) (ha : a.length = 8) (hb : b.length = 8)
    (hd : -2 ^ 63 ≤ Spec.sval a - Spec.sval b ∧ Spec.sval a - Spec.sval b < 2 ^ 63) :
    NumericComparator int64Comparator a b := by
  unfold NumericComparator int64Comparator
  rw [List.take_of_length_le (by omega), List.take_of_length_le (by omega), leInt_eq a (by omega),
    leInt_eq b (by omega)]
  apply subCmp_ok
  simp only [fits, Bool.and_eq_true, decide_eq_true_eq]
  exact hd

/-- In particular all non-negative keys (top bit clear, e.g. time stamps) are ordered numerically. -/
theorem C31_int32_nonneg (a b : List Byte) (ha : a.length = 4) (hb : b.length = 4)
    (h1 : Spec.uval a < 2 ^ 31) (h2 : Spec.uval b < 2 ^ 31) :
    int32Comparator a b = .ok (Spec.cmp3 (Spec.uval a) (Spec.uval b)) := by
  have ea : Spec.sval a = Spec.uval a := by unfold Spec.sval; rw [if_neg (by rw [ha]; omega)]
  have eb : Spec.sval b = Spec.uval b := by unfold Spec.sval; rw [if_neg (by rw [hb]; omega)]
  have := C31_int32_partial a b ha hb (by omega)
  rw [NumericComparator, ea, eb] at this
  exact this

/-- Same for 64 bits. -/
theorem C31_int64_nonneg (a b : List Byte) (ha : a.length = 8) (hb : b.length = 8)
    (h1 : Spec.uval a < 2 ^ 63) (h2 : Spec.uval b < 2 ^ 63) :
    int64Comparator a b = .ok (Spec.cmp3 (Spec.uval a) (Spec.uval b)) := by
  have ea : Spec.sval a = Spec.uval a := by unfold Spec.sval; rw [if_neg (by rw [ha]; omega)]
  have eb : Spec.sval b = Spec.uval b := by unfold Spec.sval; rw [if_neg (by rw [hb]; omega)]
  have := C31_int64_partial a b ha hb (by omega)
  rw [NumericComparator, ea, eb] at this
  exact this

/-- The hypotheses are met by keys of both signs. -/
example : Spec.sval [0xfe, 0xff, 0xff, 0xff] = -2 ∧ Spec.sval [5, 1, 0, 0] = 261 ∧
    int32Comparator [0xfe, 0xff, 0xff, 0xff] [5, 1, 0, 0] = .ok (-1) ∧
    int32Comparator [5, 1, 0, 0] [4, 1, 0, 0] = .ok 1 := by decide +kernel

end EDB
