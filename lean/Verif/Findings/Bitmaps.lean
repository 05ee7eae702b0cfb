import Verif.Props.Bitmaps

/-! # C24 (16 buckets, extreme values; `inBitmap`) and C25 (64 buckets) are false of the code -/

namespace EDB

/-- Full statement of the 16-bucket part of C24 for all 32-bit values. -/
def C24_int16_full : Prop :=
  ∀ (bm : BitVec 16) (vs : List Int) (min max : Option Int) (v : Int), v ∈ vs →
    (∀ u ∈ vs, -2 ^ 31 ≤ u ∧ u < 2 ^ 31) → (∀ lo, min = some lo → -2 ^ 31 ≤ lo ∧ lo < 2 ^ 31) →
    (∀ hi, max = some hi → -2 ^ 31 ≤ hi ∧ hi < 2 ^ 31) → Spec.inRange min max v →
    ∃ pb qb, addAll16 bm vs = .ok pb ∧ buildBitmapInt16FromRange min max = .ok qb ∧ Spec.overlap pb qb

theorem loop16_ub (v : Int) (hv : 2147483630 < v) : ∀ (f k : Nat) (num : BitVec 16), k ≤ 71582777 →
    71582777 - k < f → loop16 v f (320 + 30 * k) num = .ub
  | 0, k, num, _, h => by omega
  | f + 1, k, num, hk, hf => by
    unfold loop16
    rw [if_pos (by omega)]
    by_cases h : k = 71582777
    · rw [if_pos (by omega)]
    · rw [if_neg (by omega), show (320 + 30 * (k : Int) + 30) = 320 + 30 * ((k + 1 : Nat) : Int) from by omega]
      exact loop16_ub v hv f (k + 1) (num / 2#16) (by omega) (by omega)

/-- For the 17 largest 32-bit values the search for the bucket overflows `int32_t current`. -/
theorem C24_int16_ub (v : Int) (hv : 2147483630 < v) (bm : BitVec 16) : updateBitmapInt16 v bm = .ub := by
  unfold updateBitmapInt16
  have := loop16_ub v hv (((v - 320) / 30).toNat + 2) 0 32768#16 (by omega) (by omega)
  rw [show (320 + 30 * ((0 : Nat) : Int)) = 320 from rfl] at this
  rw [this]
  rfl

theorem C24_int16_false : ¬ C24_int16_full := by
  intro h
  obtain ⟨pb, qb, h1, -, -⟩ := h 0#16 [2147483647] none none 2147483647 (by simp) (by simp) (by simp) (by simp)
    ⟨by simp, by simp⟩
  unfold addAll16 at h1
  rw [C24_int16_ub _ (by omega)] at h1
  cases h1

/-- `inBitmapInt16` returns the 16-bit overlap through an `int8_t`: for a value in one of the first eight buckets
(all values up to 530) it answers 0 ("not in the bitmap") although the value was added. -/
theorem C24_inBitmap16_false (v : Int) (hv : v ≤ 530) :
    ∃ bm, updateBitmapInt16 v 0#16 = .ok bm ∧ inBitmapInt16 v bm = .ok 0 := by
  refine ⟨_, update16_eq v (by omega) _, ?_⟩
  unfold inBitmapInt16
  rw [update16_eq v (by omega)]
  simp only [Res.ok_bind, Res.ok.injEq]
  rw [retInt8_eq_zero]
  have h8 : 8 ≤ pos16 v := by unfold pos16 cnt16; omega
  have hlt := pos16_lt v
  generalize pos16 v = i at h8 hlt
  have : ∀ j : Fin 16, 8 ≤ j.val → ((0#16 ||| bit 16 j.val) &&& (0#16 ||| bit 16 j.val)).toNat % 256 = 0 := by
    decide +kernel
  exact this ⟨i, hlt⟩ h8

/-- Full statement of C25. -/
def C25_full : Prop :=
  ∀ (bm : BitVec 64) (vs : List Int) (min max : Option Int) (v : Int), v ∈ vs → Spec.inRange min max v →
    Spec.overlap (addAll64 bm vs) (buildBitmapInt64FromRange min max)

/-- For a lower bound in an earlier byte's 80-value stretch than the value, the page is always hidden. -/
theorem C25_min_hidden (lo v : Int) (h1 : 320 ≤ lo) (h2 : (lo - 311) / 80 < (v - 311) / 80) (h3 : lo < 871) :
    ¬ Spec.overlap (addAll64 0#64 [v]) (buildBitmapInt64FromRange (some lo) none) := by
  rintro ⟨i, ha, hb⟩
  rw [build64_eq] at hb
  have hi : pos64 v = i := by
    have : (addAll64 0#64 [v]).getLsbD i = true → _ := fun h => by
      unfold addAll64 at h
      simp only [update64_eq] at h
      exact (foldl_or_getLsbD pos64 pos64_lt [v] 0#64 i).mp h
    simpa using this ha
  have := ((rangeMask_getLsbD i (hi ▸ pos64_lt v) pos64_lt).mp hb).1 lo rfl
  rw [← hi] at this
  unfold pos64 cnt64 at this
  omega

/-- Witness: query `data >= 320`, page with the value 500. -/
theorem C25_false : ¬ C25_full := fun h =>
  C25_min_hidden 320 500 (by omega) (by omega) (by omega) (h 0#64 [500] (some 320) none 500 (by simp) ⟨by simp, by simp⟩)

/-- `inBitmapInt64` answers 0 for a value in any bucket outside the first byte although it was added. -/
theorem C25_inBitmap64_false (v : Int) (hv : 390 < v) : inBitmapInt64 v (updateBitmapInt64 v 0#64) = 0 := by
  unfold inBitmapInt64
  rw [update64_eq, retInt8_eq_zero]
  have h8 : 8 ≤ pos64 v := by unfold pos64 cnt64; omega
  have hlt := pos64_lt v
  generalize pos64 v = i at h8 hlt
  have : ∀ j : Fin 64, 8 ≤ j.val → ((0#64 ||| bit 64 j.val) &&& (0#64 ||| bit 64 j.val)).toNat % 256 = 0 := by
    decide +kernel
  exact this ⟨i, hlt⟩ h8

end EDB
