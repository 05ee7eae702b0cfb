import Verif.Model.Avg
import Verif.Spec.Avg
import Verif.Proofs.Float
import Mathlib.Algebra.Order.Floor.Ring
import Mathlib.Algebra.Order.Floor.Semiring

/-! Helper lemmas: the error of AVG. -/

namespace EDB

open Spec (Rnd ulp)

namespace FloatR
variable {b : ℕ} (r : Rnd b)

/-- The relative error of a rounding is at most 2^(1-b). -/
theorem relErr (hb0 : 0 < b) (hb : b ≤ 64) {x : ℚ} (h0 : (2 : ℚ) ^ (-60 : ℤ) ≤ x) (h1 : x < 2 ^ (100 : ℤ)) :
    |r.f x - x| ≤ 2 ^ ((1 : ℤ) - b) * x := by
  have hpos : 0 < x := lt_of_lt_of_le (two_zpow_pos _) h0
  have h2 := log2_le hpos
  have h3 := lt_log2 x
  have e1 : -60 ≤ Int.log 2 x := by
    have : (-60 : ℤ) < Int.log 2 x + 1 := (zpow_lt_zpow_iff_right₀ (by norm_num : (1 : ℚ) < 2)).mp (lt_of_le_of_lt h0 h3)
    omega
  have e2 : Int.log 2 x < 100 := (zpow_lt_zpow_iff_right₀ (by norm_num : (1 : ℚ) < 2)).mp (lt_of_le_of_lt h2 h1)
  have hu := ulp_pos b x
  have hm := ulp_mul b x
  have hm' := ulp_mul' b x
  set m := ⌊x / ulp b x⌋₊ with hmdef
  have f1 : (m : ℚ) * ulp b x ≤ x := by
    have := Nat.floor_le (div_nonneg hpos.le hu.le)
    rwa [← hmdef, le_div_iff₀ hu] at this
  have f2 : x ≤ ((m + 1 : ℕ) : ℚ) * ulp b x := by
    have := (Nat.lt_floor_add_one (x / ulp b x)).le
    rw [← hmdef, div_le_iff₀ hu] at this
    push_cast; exact this
  have f3 : m < 2 ^ b := by
    have : (m : ℚ) < ((2 ^ b : ℕ) : ℚ) := by
      by_contra hc
      have hc := mul_le_mul_of_nonneg_right (not_lt.mp hc) hu.le
      have : ((2 ^ b : ℕ) : ℚ) * ulp b x = (2 : ℚ) ^ (Int.log 2 x + 1) := by rw [← hm]; push_cast; rw [zpow_natCast]; ring
      linarith
    exact_mod_cast this
  have g1 := r.mono _ _ (by positivity) f1
  have g2 := r.mono _ _ hpos.le f2
  unfold ulp at g1 g2
  rw [r.rep m _ f3.le (by omega) (by omega)] at g1
  rw [r.rep (m + 1) _ f3 (by omega) (by omega)] at g2
  have hux : ulp b x ≤ 2 ^ ((1 : ℤ) - b) * x := by
    have : ulp b x = 2 ^ ((1 : ℤ) - b) * 2 ^ Int.log 2 x := by
      unfold ulp; rw [← zpow_add₀ (by norm_num)]; congr 1; omega
    rw [this]
    exact mul_le_mul_of_nonneg_left h2 (two_zpow_pos _).le
  unfold ulp at f1 f2 hux
  push_cast at f2 g2
  rw [abs_le]
  constructor <;> linarith

end FloatR

namespace FpFormat
variable (F : FpFormat)

theorem rnd_mono {x y : ℚ} (h : x ≤ y) : F.rnd x ≤ F.rnd y := by
  unfold rnd
  split_ifs with hx hy hy
  · exact neg_le_neg (F.neg.mono _ _ (by linarith) (by linarith))
  · have := FloatR.nonneg F.neg (x := -x) (by linarith)
    have := FloatR.nonneg F.pos (x := y) (by linarith)
    linarith
  · linarith
  · exact F.pos.mono _ _ (by linarith) h

theorem rnd_nat (n : ℕ) (h : n ≤ 2 ^ F.bits) : F.rnd n = n := by
  unfold rnd
  rw [if_neg (by have : (0 : ℚ) ≤ n := Nat.cast_nonneg n
                 linarith), FloatR.nat F.pos n h]

theorem rnd_int (z : ℤ) (h : z.natAbs ≤ 2 ^ F.bits) : F.rnd z = z := by
  rcases Int.eq_nat_or_neg z with ⟨n, rfl | rfl⟩
  · rw [Int.cast_natCast]; exact rnd_nat F n (by simpa using h)
  · simp only [Int.natAbs_neg, Int.natAbs_natCast] at h
    rcases Nat.eq_zero_or_pos n with rfl | hn
    · simpa using rnd_nat F 0 (Nat.zero_le _)
    · have hq : (0 : ℚ) < n := by exact_mod_cast hn
      unfold rnd
      push_cast
      rw [if_pos (by linarith), neg_neg, FloatR.nat F.neg n h]

/-- The relative error of a rounding of a number of either sign. -/
theorem rnd_err (hb0 : 0 < F.bits) (hb : F.bits ≤ 64) {x : ℚ} (h0 : (2 : ℚ) ^ (-60 : ℤ) ≤ |x|) (h1 : |x| < 2 ^ (100 : ℤ)) :
    |F.rnd x - x| ≤ 2 ^ ((1 : ℤ) - F.bits) * |x| := by
  unfold rnd
  split_ifs with hx
  · rw [abs_of_neg hx] at *
    have := FloatR.relErr F.neg hb0 hb h0 h1
    rwa [show -F.neg.f (-x) - x = -(F.neg.f (-x) - -x) by ring, abs_neg]
  · rw [abs_of_nonneg (not_lt.mp hx)] at *
    exact FloatR.relErr F.pos hb0 hb h0 h1

/-- The error of the three roundings of an average. -/
theorem avg_err (hb4 : 4 ≤ F.bits) (hb : F.bits ≤ 64) {s : ℤ} {n : ℕ} (hs : s.natAbs < 2 ^ 64) (hn0 : 0 < n) (hn : n < 2 ^ 32) :
    |F.avg s n - s / n| ≤ 2 ^ ((3 : ℤ) - F.bits) * |(s : ℚ) / n| := by
  have hnq : (0 : ℚ) < n := by exact_mod_cast hn0
  by_cases hz : s = 0
  · subst hz
    have h0 : F.rnd 0 = 0 := by simpa using rnd_nat F 0 (Nat.zero_le _)
    simp [avg, h0]
  set u : ℚ := 2 ^ ((1 : ℤ) - F.bits) with hu
  have hu0 : 0 < u := two_zpow_pos _
  have hu8 : u ≤ 1 / 8 := by
    have : u ≤ 2 ^ (-3 : ℤ) := by
      rw [hu]; exact zpow_le_zpow_right₀ (by norm_num) (by omega)
    norm_num at this ⊢; exact this
  have h4u : (2 : ℚ) ^ ((3 : ℤ) - F.bits) = 4 * u := by
    rw [hu, show (3 : ℤ) - F.bits = 2 + (1 - F.bits) by ring, zpow_add₀ (by norm_num)]; norm_num
  have hs1 : (1 : ℚ) ≤ |(s : ℚ)| := by
    have : 1 ≤ |s| := Int.one_le_abs hz
    exact_mod_cast this
  have hs2 : |(s : ℚ)| < 2 ^ 64 := by
    have : |s| < 2 ^ 64 := by rw [Int.abs_eq_natAbs]; exact_mod_cast hs
    exact_mod_cast this
  have hn1 : (1 : ℚ) ≤ n := by exact_mod_cast hn0
  have hn2 : (n : ℚ) < 2 ^ 32 := by exact_mod_cast hn
  have p60 : (2 : ℚ) ^ (-60 : ℤ) ≤ 1 := by norm_num
  have hS := rnd_err F (by omega) hb (x := s) (by linarith) (by norm_num; linarith)
  have hN := rnd_err F (by omega) hb (x := n) (by rw [abs_of_pos hnq]; linarith) (by rw [abs_of_pos hnq]; norm_num; linarith)
  rw [abs_of_pos hnq] at hN
  rw [← hu] at hS hN
  set S := F.rnd s
  set N := F.rnd n
  have hN1 : (1 - u) * n ≤ N := by have := (abs_le.mp hN).1; linarith
  have hN0 : 0 < N := lt_of_lt_of_le (mul_pos (by linarith) hnq) hN1
  set m : ℚ := s / n with hm
  have hmn : (s : ℚ) = m * n := by rw [hm]; field_simp
  have hma : |(s : ℚ)| = |m| * n := by rw [hmn, abs_mul, abs_of_pos hnq]
  have hqm : |S / N - m| ≤ 2 * u / (1 - u) * |m| := by
    have e : S / N - m = ((S - s) - m * (N - n)) / N := by rw [hmn]; field_simp; ring
    rw [e, abs_div, abs_of_pos hN0, div_le_iff₀ hN0]
    have t1 : |S - s - m * (N - n)| ≤ 2 * u * |m| * n := by
      have := abs_sub (S - s) (m * (N - n))
      rw [abs_mul] at this
      have := mul_le_mul_of_nonneg_left hN (abs_nonneg m)
      rw [hma] at hS
      nlinarith
    have t2 : 2 * u / (1 - u) * |m| * ((1 - u) * n) ≤ 2 * u / (1 - u) * |m| * N :=
      mul_le_mul_of_nonneg_left hN1 (mul_nonneg (div_nonneg (by linarith) (by linarith)) (abs_nonneg _))
    have t3 : 2 * u / (1 - u) * |m| * ((1 - u) * n) = 2 * u * |m| * n := by
      have : (1 - u) ≠ 0 := by linarith
      field_simp
    linarith
  have hm0 : (2 : ℚ) ^ (-32 : ℤ) ≤ |m| := by
    have e1 : (1 : ℚ) ≤ |m| * n := by rw [← hma]; exact hs1
    have e2 : |m| * n ≤ |m| * 2 ^ 32 := mul_le_mul_of_nonneg_left hn2.le (abs_nonneg _)
    norm_num at e2 ⊢; linarith
  have hm1 : |m| < 2 ^ 64 := by
    have : |m| * 1 ≤ |m| * n := mul_le_mul_of_nonneg_left hn1 (abs_nonneg _)
    linarith
  have hk : 2 * u / (1 - u) ≤ 1 / 2 := by rw [div_le_iff₀ (by linarith)]; linarith
  have hkm : 2 * u / (1 - u) * |m| ≤ 1 / 2 * |m| := mul_le_mul_of_nonneg_right hk (abs_nonneg _)
  have hq1 : |S / N| ≤ |m| + 2 * u / (1 - u) * |m| := by
    have := abs_add_le (S / N - m) m
    rw [sub_add_cancel] at this; linarith
  have hq2 : |m| - 2 * u / (1 - u) * |m| ≤ |S / N| := by
    have := abs_sub_abs_le_abs_sub m (S / N)
    rw [abs_sub_comm] at this; linarith
  have hQ := rnd_err F (by omega) hb (x := S / N) (by norm_num at hm0 ⊢; linarith) (by norm_num at hm1 ⊢; linarith)
  rw [← hu] at hQ
  have tri := abs_add_le (F.rnd (S / N) - S / N) (S / N - m)
  rw [sub_add_sub_cancel] at tri
  have hfin : u * (1 + 2 * u / (1 - u)) + 2 * u / (1 - u) ≤ 4 * u := by
    have : (1 - u) ≠ 0 := by linarith
    have e : u * (1 + 2 * u / (1 - u)) + 2 * u / (1 - u) = (3 * u + u * u) / (1 - u) := by field_simp; ring
    rw [e, div_le_iff₀ (by linarith)]; nlinarith
  have h5 := mul_le_mul_of_nonneg_left hq1 hu0.le
  have h6 := mul_le_mul_of_nonneg_right hfin (abs_nonneg m)
  rw [h4u]
  show |F.rnd (S / N) - m| ≤ _
  nlinarith

end FpFormat

end EDB
