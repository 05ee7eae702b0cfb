import Verif.Spec.Float
import Mathlib.Tactic.Linarith
import Mathlib.Tactic.NormNum
import Mathlib.Tactic.Positivity
import Mathlib.Tactic.Ring
import Mathlib.Tactic.FieldSimp

/-! Helper lemmas: IEEE 754 rounding in every rounding mode is a `Spec.Rnd`. -/

namespace EDB

open Spec (Rnd ToInt ulp roundTo)

theorem two_zpow_pos (e : ℤ) : (0 : ℚ) < 2 ^ e := zpow_pos (by norm_num) _

theorem ulp_pos (b : ℕ) (x : ℚ) : 0 < ulp b x := two_zpow_pos _

theorem ulp_mul (b : ℕ) (x : ℚ) : ulp b x * 2 ^ (b : ℤ) = (2 : ℚ) ^ (Int.log 2 x + 1) := by
  unfold ulp
  rw [← zpow_add₀ (by norm_num)]
  congr 1
  ring

theorem ulp_mul' (b : ℕ) (x : ℚ) : ulp b x * 2 ^ ((b : ℤ) - 1) = (2 : ℚ) ^ Int.log 2 x := by
  unfold ulp
  rw [← zpow_add₀ (by norm_num)]
  congr 1
  ring

theorem log2_le {x : ℚ} (h : 0 < x) : (2 : ℚ) ^ Int.log 2 x ≤ x := by
  simpa using Int.zpow_log_le_self (b := 2) (by norm_num) h

theorem lt_log2 (x : ℚ) : x < (2 : ℚ) ^ (Int.log 2 x + 1) := by
  simpa using Int.lt_zpow_succ_log_self (b := 2) (by norm_num) x

/-- The binary logarithm of a number between two powers of two. -/
theorem log2_eq {x : ℚ} {e : ℤ} (h1 : (2 : ℚ) ^ e ≤ x) (h2 : x < 2 ^ (e + 1)) : Int.log 2 x = e := by
  have hpos := lt_of_lt_of_le (two_zpow_pos e) h1
  have h3 := log2_le hpos
  have h4 := lt_log2 x
  have h5 : e < Int.log 2 x + 1 := (zpow_lt_zpow_iff_right₀ (by norm_num : (1 : ℚ) < 2)).mp (lt_of_le_of_lt h1 h4)
  have h6 : Int.log 2 x < e + 1 := (zpow_lt_zpow_iff_right₀ (by norm_num : (1 : ℚ) < 2)).mp (lt_of_le_of_lt h3 h2)
  omega

/-- A power of two with a nonnegative exponent is an integer. -/
theorem zpow_int {e : ℤ} (h : 0 ≤ e) : (2 : ℚ) ^ e = (((2 : ℤ) ^ e.toNat : ℤ) : ℚ) := by
  push_cast
  rw [← zpow_natCast, Int.toNat_of_nonneg h]

section
variable {b : ℕ} (hb : 0 < b)
include hb

/-- The rounding of `x` is at least the power of two below it. -/
theorem roundTo_ge (t : ToInt) {x : ℚ} (h : 0 < x) : (2 : ℚ) ^ Int.log 2 x ≤ roundTo b t x := by
  unfold roundTo
  rw [if_neg (not_le.mpr h)]
  have h1 : (2 : ℚ) ^ ((b : ℤ) - 1) ≤ x / ulp b x := by
    rw [le_div_iff₀ (ulp_pos b x), mul_comm, ulp_mul']
    exact log2_le h
  rw [zpow_int (by omega)] at h1
  have h2 := t.mono h1
  rw [t.int] at h2
  have h3 : (2 : ℚ) ^ ((b : ℤ) - 1) ≤ (t.g (x / ulp b x) : ℚ) := by
    rw [zpow_int (by omega)]
    exact_mod_cast h2
  rw [← ulp_mul' b, mul_comm]
  exact mul_le_mul_of_nonneg_right h3 (ulp_pos b x).le

omit hb in
/-- The rounding of `x` is at most the power of two above it. -/
theorem roundTo_le (t : ToInt) {x : ℚ} (h : 0 < x) : roundTo b t x ≤ (2 : ℚ) ^ (Int.log 2 x + 1) := by
  unfold roundTo
  rw [if_neg (not_le.mpr h)]
  have h1 : x / ulp b x ≤ 2 ^ (b : ℤ) := by
    rw [div_le_iff₀ (ulp_pos b x), mul_comm, ulp_mul]
    exact (lt_log2 x).le
  rw [zpow_int (by omega)] at h1
  have h2 := t.mono h1
  rw [t.int] at h2
  have h3 : (t.g (x / ulp b x) : ℚ) ≤ 2 ^ (b : ℤ) := by
    rw [zpow_int (by omega)]
    exact_mod_cast h2
  rw [← ulp_mul b, mul_comm]
  exact mul_le_mul_of_nonneg_left h3 (ulp_pos b x).le

theorem roundTo_mono (t : ToInt) (x y : ℚ) (h0 : 0 ≤ x) (h : x ≤ y) : roundTo b t x ≤ roundTo b t y := by
  rcases eq_or_lt_of_le h0 with rfl | hx
  · rcases eq_or_lt_of_le h with rfl | hy
    · exact le_refl _
    · have := roundTo_ge hb t hy
      have h2 := two_zpow_pos (Int.log 2 y)
      have : roundTo b t 0 = 0 := by unfold roundTo; rw [if_pos (le_refl _)]
      linarith
  · have hy : 0 < y := lt_of_lt_of_le hx h
    have hl := Int.log_mono_right (b := 2) hx h
    rcases eq_or_lt_of_le hl with he | hlt
    · have hu : ulp b x = ulp b y := by unfold ulp; rw [he]
      unfold roundTo
      rw [if_neg (not_le.mpr hx), if_neg (not_le.mpr hy), hu]
      have h1 : t.g (x / ulp b y) ≤ t.g (y / ulp b y) := t.mono (by
        rw [div_eq_mul_inv, div_eq_mul_inv]
        exact mul_le_mul_of_nonneg_right h (inv_nonneg.mpr (ulp_pos b y).le))
      exact mul_le_mul_of_nonneg_right (by exact_mod_cast h1) (ulp_pos b y).le
    · refine (roundTo_le t hx).trans (le_trans ?_ (roundTo_ge hb t hy))
      exact zpow_le_zpow_right₀ (by norm_num) hlt

omit hb in
theorem roundTo_fix (t : ToInt) {x : ℚ} (h : 0 < x) (z : ℤ) (e : x / ulp b x = z) : roundTo b t x = x := by
  unfold roundTo
  rw [if_neg (not_le.mpr h), e, t.int, ← e, div_mul_cancel₀ _ (ulp_pos b x).ne']

theorem roundTo_rep (t : ToInt) (n : ℕ) (e : ℤ) (h : n ≤ 2 ^ b) : roundTo b t (n * 2 ^ e) = n * 2 ^ e := by
  have he := two_zpow_pos e
  rcases Nat.eq_zero_or_pos n with rfl | hn
  · unfold roundTo; rw [if_pos (by simp)]; simp
  · have hnq : (0 : ℚ) < n := by exact_mod_cast hn
    have hpos : (0 : ℚ) < n * 2 ^ e := mul_pos hnq he
    have hnb : (n : ℚ) ≤ 2 ^ (b : ℤ) := by
      have : (n : ℚ) ≤ ((2 ^ b : ℕ) : ℚ) := by exact_mod_cast h
      refine this.trans (le_of_eq ?_)
      push_cast
      rw [zpow_natCast]
    generalize hx : (n : ℚ) * 2 ^ e = x at hpos
    have hlog : Int.log 2 x ≤ e + b := by
      have h1 := log2_le hpos
      have h2 : x ≤ 2 ^ (e + b) := by
        rw [zpow_add₀ (by norm_num), ← hx, mul_comm]
        exact mul_le_mul_of_nonneg_left hnb he.le
      exact (zpow_le_zpow_iff_right₀ (by norm_num : (1 : ℚ) < 2)).mp (h1.trans h2)
    rcases eq_or_lt_of_le hlog with heq | hlt
    · have h1 := log2_le hpos
      rw [heq, zpow_add₀ (by norm_num), ← hx, mul_comm (n : ℚ)] at h1
      have h2 : (2 : ℚ) ^ (b : ℤ) ≤ n := le_of_mul_le_mul_left h1 he
      have hn24 : (n : ℚ) = 2 ^ (b : ℤ) := le_antisymm hnb h2
      refine roundTo_fix t hpos (2 ^ ((b : ℤ) - 1).toNat) ?_
      have h3 := ulp_mul' b x
      rw [heq, zpow_add₀ (by norm_num), ← hn24, mul_comm _ (n : ℚ), hx] at h3
      rw [div_eq_iff (ulp_pos _ _).ne', ← zpow_int (by omega), mul_comm]
      exact h3.symm
    · refine roundTo_fix t hpos (n * 2 ^ (e + b - 1 - Int.log 2 x).toNat) ?_
      have hu : ulp b x * 2 ^ (e + b - 1 - Int.log 2 x).toNat = 2 ^ e := by
        unfold ulp
        rw [← zpow_natCast, ← zpow_add₀ (by norm_num), Int.toNat_of_nonneg (by omega)]
        congr 1
        ring
      rw [div_eq_iff (ulp_pos _ _).ne']
      push_cast
      rw [mul_assoc, mul_comm _ (ulp b x), hu, hx]

end

/-- Rounding to `b` bits in the rounding mode given by `t`. -/
def ieee (b : ℕ) (hb : 0 < b) (t : ToInt) : Rnd b :=
  ⟨roundTo b t, roundTo_mono hb t, fun n e h _ _ => roundTo_rep hb t n e h⟩

/-- Exact arithmetic. -/
def exactRnd (b : ℕ) : Rnd b := ⟨id, fun _ _ _ h => h, fun _ _ _ _ _ => rfl⟩

theorem nearestEven_mono : Monotone Spec.nearestEven := by
  intro x y h
  have hf : ⌊x⌋ ≤ ⌊y⌋ := Int.floor_le_floor h
  have up : Spec.nearestEven x ≤ ⌊x⌋ + 1 := by unfold Spec.nearestEven; split_ifs <;> omega
  have dn : ⌊y⌋ ≤ Spec.nearestEven y := by unfold Spec.nearestEven; split_ifs <;> omega
  rcases eq_or_lt_of_le hf with he | hl
  · unfold Spec.nearestEven
    rw [he]
    split_ifs <;> first | omega | (exfalso; linarith)
  · omega

theorem nearestEven_int (z : ℤ) : Spec.nearestEven z = z := by
  unfold Spec.nearestEven
  rw [Int.floor_intCast, if_pos (by norm_num)]

/-- Round to nearest, ties to even: the default rounding mode of IEEE 754. -/
def toEven : ToInt := ⟨Spec.nearestEven, nearestEven_mono, nearestEven_int⟩

/-- Rounding toward zero. -/
def toZero : ToInt := ⟨fun x => ⌊x⌋, fun _ _ h => Int.floor_le_floor h, fun z => Int.floor_intCast z⟩

/-- `float` in the default rounding mode. -/
def binary32 : Rnd 24 := ieee 24 (by norm_num) toEven

/-- `double` in the default rounding mode. -/
def binary64 : Rnd 53 := ieee 53 (by norm_num) toEven

/-- Value of a rounding, computed with a given exponent. -/
theorem roundTo_eval {b : ℕ} (t : ToInt) {x : ℚ} (e : ℤ) (h1 : (2 : ℚ) ^ e ≤ x) (h2 : x < 2 ^ (e + 1)) :
    roundTo b t x = t.g (x / 2 ^ (e + 1 - b)) * 2 ^ (e + 1 - b) := by
  unfold roundTo ulp
  rw [if_neg (not_le.mpr (lt_of_lt_of_le (two_zpow_pos e) h1)), log2_eq h1 h2]

namespace FloatR
variable {b : ℕ} (r : Rnd b)

theorem nat (n : ℕ) (h : n ≤ 2 ^ b) : r.f n = n := by
  have := r.rep n 0 h (by norm_num) (by norm_num)
  simpa using this

theorem pow (e : ℤ) (h1 : -126 ≤ e) (h2 : e ≤ 100) : r.f (2 ^ e) = 2 ^ e := by
  have := r.rep 1 e Nat.one_le_two_pow h1 h2
  simpa using this

theorem zero : r.f 0 = 0 := by have := nat r 0 (Nat.zero_le _); simpa using this

theorem one : r.f 1 = 1 := by have := nat r 1 Nat.one_le_two_pow; simpa using this

theorem nonneg {x : ℚ} (h : 0 ≤ x) : 0 ≤ r.f x := by
  have := r.mono 0 x (le_refl _) h
  rwa [zero] at this

/-- Rounding loses less than half of the value. -/
theorem half {x : ℚ} (h0 : (2 : ℚ) ^ (-126 : ℤ) ≤ x) (h1 : x < 2 ^ (100 : ℤ)) : x / 2 ≤ r.f x := by
  have hpos : 0 < x := lt_of_lt_of_le (two_zpow_pos _) h0
  have h2 := log2_le hpos
  have h3 := lt_log2 x
  have e1 : -126 ≤ Int.log 2 x := by
    have : (-126 : ℤ) < Int.log 2 x + 1 := (zpow_lt_zpow_iff_right₀ (by norm_num : (1 : ℚ) < 2)).mp (lt_of_le_of_lt h0 h3)
    omega
  have e2 : Int.log 2 x ≤ 100 := by
    have : Int.log 2 x < 100 := (zpow_lt_zpow_iff_right₀ (by norm_num : (1 : ℚ) < 2)).mp (lt_of_le_of_lt h2 h1)
    omega
  have h4 := r.mono _ _ (two_zpow_pos _).le h2
  rw [pow r _ e1 e2] at h4
  rw [zpow_add₀ (by norm_num), zpow_one] at h3
  linarith

/-- With enough bits the floor of a computed quotient is the exact floor. -/
theorem quot (hb : b ≤ 120) {X D : ℕ} (hD : 0 < D) (hDb : D ≤ 2 ^ b) (hX : 2 * X ≤ 2 ^ b) :
    ((X / D : ℕ) : ℚ) ≤ r.f (r.f X / r.f D) ∧ r.f (r.f X / r.f D) < ((X / D + 1 : ℕ) : ℚ) := by
  rw [nat r X (by omega), nat r D hDb]
  have hDq : (0 : ℚ) < D := by exact_mod_cast hD
  obtain ⟨n, hn⟩ : ∃ n, n = X / D := ⟨_, rfl⟩
  rw [← hn]
  have h1 : n * D ≤ X := hn ▸ Nat.div_mul_le_self X D
  have h2 : X + 1 ≤ (n + 1) * D := by
    have := Nat.lt_mul_div_succ X hD
    rw [← hn, Nat.mul_comm] at this
    omega
  have hnX : n ≤ X := hn ▸ Nat.div_le_self X D
  have q0 : (0 : ℚ) ≤ (X : ℚ) / D := by positivity
  constructor
  · have : ((n : ℕ) : ℚ) ≤ (X : ℚ) / D := by
      rw [le_div_iff₀ hDq]
      exact_mod_cast h1
    have h3 := r.mono _ _ (by positivity) this
    rwa [nat r n (by omega)] at h3
  · -- a representable number between the quotient and the next integer
    obtain ⟨s, s1, s2⟩ : ∃ s : ℕ, n + 1 ≤ 2 ^ s ∧ D * 2 ^ s ≤ 2 ^ b := by
      rcases Nat.eq_zero_or_pos n with h0 | h0
      · exact ⟨0, by omega, by simpa using hDb⟩
      · refine ⟨Nat.log 2 n + 1, Nat.lt_pow_succ_log_self (by norm_num) n, ?_⟩
        have h3 : 2 ^ Nat.log 2 n ≤ n := Nat.pow_log_le_self 2 (by omega)
        calc D * 2 ^ (Nat.log 2 n + 1) = 2 * (2 ^ Nat.log 2 n * D) := by rw [pow_succ]; ring
          _ ≤ 2 * (n * D) := Nat.mul_le_mul_left _ (Nat.mul_le_mul_right _ h3)
          _ ≤ 2 ^ b := by omega
    have hsb : s ≤ b := by
      by_contra hc
      have h3 : 2 ^ b < 2 ^ s := Nat.pow_lt_pow_right (by norm_num) (by omega)
      have h4 : 1 * 2 ^ s ≤ D * 2 ^ s := Nat.mul_le_mul_right _ hD
      omega
    have hm1 : 1 ≤ (n + 1) * 2 ^ (b - s) := Nat.mul_pos (by omega) (Nat.two_pow_pos _)
    have hm2 : (n + 1) * 2 ^ (b - s) ≤ 2 ^ b := by
      calc (n + 1) * 2 ^ (b - s) ≤ 2 ^ s * 2 ^ (b - s) := Nat.mul_le_mul_right _ s1
        _ = 2 ^ b := by rw [← pow_add]; congr 1; omega
    have hrep := r.rep ((n + 1) * 2 ^ (b - s) - 1) ((s : ℤ) - b)
      ((Nat.sub_le _ _).trans hm2) (by omega) (by omega)
    have hu : (2 : ℚ) ^ (b - s) * 2 ^ ((s : ℤ) - b) = 1 := by
      rw [← zpow_natCast, ← zpow_add₀ (by norm_num), Nat.cast_sub hsb]
      rw [show ((b : ℤ) - s) + (s - b) = 0 by ring, zpow_zero]
    have he : (((n + 1) * 2 ^ (b - s) - 1 : ℕ) : ℚ) * 2 ^ ((s : ℤ) - b) = (n + 1 : ℕ) - 2 ^ ((s : ℤ) - b) := by
      rw [Nat.cast_sub hm1]
      push_cast
      rw [sub_mul, mul_assoc, hu]
      ring
    rw [he] at hrep
    have hpos := two_zpow_pos ((s : ℤ) - b)
    have hle : (X : ℚ) / D ≤ (n + 1 : ℕ) - 2 ^ ((s : ℤ) - b) := by
      rw [div_le_iff₀ hDq]
      have h5 : (D : ℚ) * 2 ^ ((s : ℤ) - b) ≤ 1 := by
        have h6 : (D : ℚ) * 2 ^ (s : ℕ) ≤ 2 ^ (b : ℕ) := by exact_mod_cast s2
        rw [zpow_sub₀ (by norm_num), zpow_natCast, zpow_natCast, ← mul_div_assoc, div_le_one (by positivity)]
        exact h6
      have h7 : (X : ℚ) + 1 ≤ ((n + 1 : ℕ) : ℚ) * D := by exact_mod_cast h2
      nlinarith
    have h8 := r.mono _ _ q0 hle
    rw [hrep] at h8
    linarith

end FloatR

end EDB
