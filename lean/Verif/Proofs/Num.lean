import Verif.Model.Utility
import Verif.Spec.Num
import Mathlib.Tactic.Ring

/-! Helper lemmas: bytes and numbers. -/

namespace EDB

theorem uval_nil : Spec.uval [] = 0 := rfl

theorem uval_cons (b : UInt8) (bs : List UInt8) : Spec.uval (b :: bs) = b.toNat + 256 * Spec.uval bs := by
  unfold Spec.uval
  rw [List.length_cons, List.range_succ_eq_map]
  simp only [List.map_cons, List.map_map, List.sum_cons]
  have : ∀ l : List Nat, (l.map ((fun i => ((b :: bs).getD i 0).toNat * 256 ^ i) ∘ Nat.succ)).sum
      = 256 * (l.map (fun i => (bs.getD i 0).toNat * 256 ^ i)).sum := by
    intro l
    induction l with
    | nil => rfl
    | cons a l ih =>
      simp only [List.map_cons, List.sum_cons, ih]
      simp only [Function.comp, List.getD_cons_succ, Nat.succ_eq_add_one, Nat.pow_succ]
      ring
  rw [this]
  simp

theorem uval_eq (bs : List UInt8) : Spec.uval bs = leNat bs := by
  induction bs with
  | nil => rfl
  | cons b bs ih => rw [uval_cons, ih]; rfl

theorem leNat_lt (bs : List Byte) : leNat bs < 256 ^ bs.length := by
  induction bs with
  | nil => simp [leNat]
  | cons b bs ih =>
    have := b.toNat_lt
    simp only [leNat, List.length_cons, Nat.pow_succ]
    omega

theorem leBytes_length (n v : Nat) : (leBytes n v).length = n := by
  induction n generalizing v with
  | zero => rfl
  | succ n ih => simp [leBytes, ih]

theorem leNat_leBytes (n v : Nat) : leNat (leBytes n v) = v % 256 ^ n := by
  induction n generalizing v with
  | zero => simp [leBytes, leNat, Nat.mod_one]
  | succ n ih =>
    simp only [leBytes, leNat, ih, UInt8.toNat_ofNat']
    rw [show 256 ^ (n + 1) = 256 * 256 ^ n from Nat.pow_succ', Nat.mod_mul]

theorem leNat_leBytes_of_lt {n v : Nat} (h : v < 256 ^ n) : leNat (leBytes n v) = v := by
  rw [leNat_leBytes, Nat.mod_eq_of_lt h]

theorem leNat_inj : ∀ (a b : List Byte), a.length = b.length → leNat a = leNat b → a = b
  | [], [], _, _ => rfl
  | [], _ :: _, h, _ => by simp at h
  | _ :: _, [], h, _ => by simp at h
  | x :: a, y :: b, h, e => by
    have hx := x.toNat_lt
    have hy := y.toNat_lt
    simp only [leNat] at e
    simp only [List.length_cons, Nat.add_right_cancel_iff] at h
    have h1 : x.toNat = y.toNat := by omega
    have h2 : leNat a = leNat b := by omega
    rw [leNat_inj a b h h2, UInt8.toNat_inj.mp h1]

theorem leInt_eq (bs : List UInt8) (h : 0 < bs.length) : leInt bs = Spec.sval bs := by
  unfold leInt Spec.sval
  rw [uval_eq]
  have e : 256 ^ bs.length = 2 * 2 ^ (8 * bs.length - 1) := by
    rw [show (256 : Nat) = 2 ^ 8 from rfl, ← Nat.pow_mul, ← Nat.pow_succ']
    congr 1; omega
  have e2 : (256 : Int) ^ bs.length = 2 ^ (8 * bs.length) := by
    rw [show (256 : Int) = 2 ^ 8 from rfl, ← pow_mul]
  rw [e2, e]
  split <;> split <;> first | rfl | omega

end EDB
