import Verif.Model.Query
import Verif.Proofs.Num
import Mathlib.Tactic.SplitIfs

/-! Helper lemmas: byte-wise comparison is numeric comparison. -/

namespace EDB

theorem leNat_append (a b : List Byte) : leNat (a ++ b) = leNat a + 256 ^ a.length * leNat b := by
  induction a with
  | nil => simp [leNat]
  | cons x a ih => simp only [List.cons_append, leNat, ih, List.length_cons, Nat.pow_succ]; ring

theorem leNat_take_succ (a : List Byte) (n : Nat) (h : n < a.length) :
    leNat (a.take (n + 1)) = leNat (a.take n) + 256 ^ n * (a.getD n 0).toNat := by
  rw [List.take_succ_eq_append_getElem h, leNat_append, List.length_take, Nat.min_eq_left (by omega)]
  simp [leNat, h]

theorem leNat_take_lt (a : List Byte) (n : Nat) : leNat (a.take n) < 256 ^ n := by
  have h1 := leNat_lt (a.take n)
  have h2 : (a.take n).length ≤ n := List.length_take_le n a
  exact lt_of_lt_of_le h1 (Nat.pow_le_pow_right (by omega) h2)

theorem cmpBytes_eq (a b : List Byte) (n : Nat) (ha : n ≤ a.length) (hb : n ≤ b.length) :
    cmpBytes a b n = Spec.cmp3 (leNat (a.take n)) (leNat (b.take n)) := by
  induction n with
  | zero => simp [cmpBytes, Spec.cmp3]
  | succ n ih =>
    rw [leNat_take_succ a n (by omega), leNat_take_succ b n (by omega)]
    have h1 := leNat_take_lt a n
    have h2 := leNat_take_lt b n
    unfold cmpBytes
    generalize a.getD n 0 = x at *
    generalize b.getD n 0 = y at *
    rw [ih (by omega) (by omega)]
    generalize leNat (a.take n) = u at *
    generalize leNat (b.take n) = v at *
    have hp : 0 < 256 ^ n := Nat.pos_of_ne_zero (by simp)
    generalize 256 ^ n = p at *
    by_cases hlt : x < y
    · rw [if_pos hlt]
      rw [UInt8.lt_iff_toNat_lt] at hlt
      have : p * x.toNat + p ≤ p * y.toNat := by rw [← Nat.mul_succ]; exact Nat.mul_le_mul_left _ hlt
      unfold Spec.cmp3
      rw [if_pos (by omega)]
    · rw [if_neg hlt]
      by_cases hgt : x > y
      · rw [if_pos hgt]
        rw [GT.gt, UInt8.lt_iff_toNat_lt] at hgt
        have : p * y.toNat + p ≤ p * x.toNat := by rw [← Nat.mul_succ]; exact Nat.mul_le_mul_left _ hgt
        unfold Spec.cmp3
        rw [if_neg (by omega), if_pos (by omega)]
      · rw [if_neg hgt]
        have : x = y := by
          rw [UInt8.lt_iff_toNat_lt] at hlt
          rw [GT.gt, UInt8.lt_iff_toNat_lt] at hgt
          exact UInt8.toNat_inj.mp (by omega)
        subst this
        unfold Spec.cmp3
        split <;> split <;> first | rfl | omega

theorem top_bit (x : Byte) : (x &&& 0x80 = 0x80 ∧ 128 ≤ x.toNat) ∨ (x &&& 0x80 = 0 ∧ x.toNat < 128) := by
  have : ∀ x : Fin 256, ((UInt8.ofNat x.val) &&& 0x80 = 0x80 ∧ 128 ≤ (UInt8.ofNat x.val).toNat) ∨
      ((UInt8.ofNat x.val) &&& 0x80 = 0 ∧ (UInt8.ofNat x.val).toNat < 128) := by decide +kernel
  have h := this ⟨x.toNat, x.toNat_lt⟩
  simpa using h

theorem compareSigned_eq (a b : List Byte) (n : Nat) (hn : 0 < n) (ha : n ≤ a.length) (hb : n ≤ b.length) :
    compareSigned a b n = Spec.cmp3 (leInt (a.take n)) (leInt (b.take n)) := by
  obtain ⟨m, rfl⟩ : ∃ m, n = m + 1 := ⟨n - 1, by omega⟩
  unfold compareSigned leInt
  rw [cmpBytes_eq a b _ ha hb]
  simp only [Nat.add_sub_cancel, List.length_take, Nat.min_eq_left ha, Nat.min_eq_left hb]
  rw [leNat_take_succ a m (by omega), leNat_take_succ b m (by omega)]
  have h1 := leNat_take_lt a m
  have h2 := leNat_take_lt b m
  generalize a.getD m 0 = x at *
  generalize b.getD m 0 = y at *
  generalize leNat (a.take m) = u at *
  generalize leNat (b.take m) = v at *
  rw [show (256 : Int) ^ (m + 1) = ((256 ^ (m + 1) : Nat) : Int) from by push_cast; rfl, Nat.pow_succ]
  have hp : 0 < 256 ^ m := Nat.pos_of_ne_zero (by simp)
  generalize 256 ^ m = p at *
  have hx := x.toNat_lt
  have hy := y.toNat_lt
  have key : ∀ z : Byte, ∀ t : Nat, t < p →
      (z.toNat < 128 → t + p * z.toNat < p * 128) ∧ (128 ≤ z.toNat → p * 128 ≤ t + p * z.toNat) ∧
        t + p * z.toNat < p * 256 := by
    intro z t ht
    have hz := z.toNat_lt
    refine ⟨fun h => ?_, fun h => ?_, ?_⟩
    · have : p * (z.toNat + 1) ≤ p * 128 := Nat.mul_le_mul_left _ h
      rw [Nat.mul_succ] at this; omega
    · have : p * 128 ≤ p * z.toNat := Nat.mul_le_mul_left _ h
      omega
    · have : p * (z.toNat + 1) ≤ p * 256 := Nat.mul_le_mul_left _ hz
      rw [Nat.mul_succ] at this; omega
  have kx := key x u h1
  have ky := key y v h2
  generalize u + p * x.toNat = X at *
  generalize v + p * y.toNat = Y at *
  have n1 : ¬ ((0x80 : UInt8) = 0) := by decide
  have n2 : ¬ ((0 : UInt8) = 0x80) := by decide
  rcases top_bit x with ⟨ex, bx⟩ | ⟨ex, bx⟩ <;> rcases top_bit y with ⟨ey, bY⟩ | ⟨ey, bY⟩ <;> rw [ex, ey] <;>
    simp only [ne_eq, not_true_eq_false, if_false, n1, n2, not_false_eq_true, if_true] <;> unfold Spec.cmp3 <;>
    split_ifs <;> first | rfl | omega

end EDB
