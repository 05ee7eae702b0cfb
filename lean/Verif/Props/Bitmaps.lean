import Verif.Proofs.Bitmaps

/-!
# C24, C25: the supplied bitmap functions

A page bitmap is built by folding `updateBitmap` over the values of the page's records.  Soundness: a page that
holds a value satisfying the query overlaps the query's bitmap, so the iterator does not skip it.
-/

namespace EDB

/-! ## 8 buckets -/

/-- The page bitmap after adding the values of `vs` to `bm`, in order. -/
def addAll8 (bm : BitVec 8) (vs : List Int) : BitVec 8 := vs.foldl (fun b v => updateBitmapInt8 v b) bm

theorem addAll8_getLsbD (bm : BitVec 8) (vs : List Int) (j : Nat) :
    (addAll8 bm vs).getLsbD j = true ↔ bm.getLsbD j = true ∨ ∃ v ∈ vs, pos8 v = j := by
  unfold addAll8
  simp only [update8_eq]
  exact foldl_or_getLsbD pos8 pos8_lt vs bm j

/-- C24, 8 buckets: if some value of the page satisfies the query, page bitmap and query bitmap overlap. -/
theorem C24_int8_sound (bm : BitVec 8) (vs : List Int) (min max : Option Int) (v : Int) (hv : v ∈ vs)
    (hr : Spec.inRange min max v) : Spec.overlap (addAll8 bm vs) (buildBitmapInt8FromRange min max) := by
  rw [build8_eq]
  exact rangeMask_overlap pos8_lt ((addAll8_getLsbD _ _ _).mpr (.inr ⟨v, hv, rfl⟩))
    (fun lo h => pos8_anti (hr.1 lo h)) (fun hi h => pos8_anti (hr.2 hi h))

theorem retInt8_eq_zero {n : Nat} : retInt8 n = 0 ↔ n % 256 = 0 := by unfold retInt8; split <;> omega

/-- C24, 8 buckets: `inBitmap` answers "yes" for every value that was added, and answers "no" only if adding the
value would set a new bit. -/
theorem C24_int8_inBitmap (bm : BitVec 8) (v : Int) : inBitmapInt8 v bm ≠ 0 ↔ updateBitmapInt8 v bm = bm := by
  unfold inBitmapInt8
  rw [ne_eq, retInt8_eq_zero, Nat.mod_eq_of_lt (BitVec.isLt _)]
  rw [show updateBitmapInt8 v 0#8 = bit 8 (pos8 v) from by rw [update8_eq]; simp, update8_eq]
  have h0 : (bit 8 (pos8 v) &&& bm).toNat = 0 ↔ bit 8 (pos8 v) &&& bm = 0#8 :=
    ⟨fun h => BitVec.eq_of_toNat_eq (by simpa using h), fun h => by rw [h]; rfl⟩
  rw [h0]
  have h1 := bit_and_ne_zero bm (pos8_lt v)
  rw [ne_eq] at h1
  rw [h1]
  constructor
  · intro h
    apply BitVec.eq_of_getLsbD_eq
    intro j hj
    rw [or_bit_getLsbD _ (pos8_lt v)]
    by_cases e : j = pos8 v
    · subst e; simp [h]
    · simp [e]
  · intro h
    have := congrArg (fun b => b.getLsbD (pos8 v)) h
    simpa [or_bit_getLsbD _ (pos8_lt v)] using this

/-- The low byte of the overlap of a single-bit bitmap. -/
theorem bit_and_low {w i : Nat} (bm : BitVec w) (hi : i < w) :
    (bit w i &&& bm).toNat % 256 ≠ 0 ↔ i < 8 ∧ bm.getLsbD i = true := by
  cases hb : bm.getLsbD i with
  | false =>
    have : bit w i &&& bm = 0#w := by
      by_contra h
      rw [(bit_and_ne_zero bm hi).mp h] at hb
      cases hb
    simp [this]
  | true =>
    have : bit w i &&& bm = bit w i := by
      apply BitVec.eq_of_getLsbD_eq
      intro j hj
      rw [BitVec.getLsbD_and, bit_getLsbD hi]
      by_cases e : j = i
      · subst e; simp [hb]
      · simp [e]
    rw [this]
    have h2 : (bit w i).toNat = 2 ^ i := by
      unfold bit
      rw [BitVec.toNat_shiftLeft, BitVec.toNat_ofNat, Nat.shiftLeft_eq]
      have h1 : 1 % 2 ^ w = 1 := Nat.mod_eq_of_lt (Nat.one_lt_two_pow (by omega))
      rw [h1, Nat.one_mul]
      exact Nat.mod_eq_of_lt (Nat.pow_lt_pow_right (by decide) hi)
    rw [h2]
    constructor
    · intro h
      refine ⟨?_, rfl⟩
      by_contra h8
      apply h
      obtain ⟨k, rfl⟩ : ∃ k, i = 8 + k := ⟨i - 8, by omega⟩
      rw [Nat.pow_add]
      exact Nat.mul_mod_right _ _
    · rintro ⟨h8, -⟩
      have : 2 ^ i < 256 := Nat.pow_lt_pow_right (by decide : 1 < 2) h8
      rw [Nat.mod_eq_of_lt this]
      exact Nat.pos_iff_ne_zero.mp (Nat.pow_pos (by decide))

/-- Adding a value that sets no new bit. -/
theorem or_bit_eq_self {w i : Nat} (bm : BitVec w) (hi : i < w) : bm ||| bit w i = bm ↔ bm.getLsbD i = true := by
  constructor
  · intro h
    have := congrArg (fun b => b.getLsbD i) h
    simpa [or_bit_getLsbD _ hi] using this
  · intro h
    apply BitVec.eq_of_getLsbD_eq
    intro j hj
    rw [or_bit_getLsbD _ hi]
    by_cases e : j = i
    · subst e; simp [h]
    · simp [e]

/-- Soundness is not vacuous: the 8-bucket query bitmap excludes pages. -/
example : ¬ Spec.overlap (addAll8 0#8 [5, 12]) (buildBitmapInt8FromRange (some 30) none) ∧
    Spec.overlap (addAll8 0#8 [5, 35]) (buildBitmapInt8FromRange (some 30) (some 70)) := by
  constructor
  · rintro ⟨i, h1, h2⟩
    have : (addAll8 0#8 [5, 12] &&& buildBitmapInt8FromRange (some 30) none).getLsbD i = true := by
      rw [BitVec.getLsbD_and, h1, h2]; rfl
    have e : addAll8 0#8 [5, 12] &&& buildBitmapInt8FromRange (some 30) none = 0#8 := by decide +kernel
    rw [e] at this
    simp at this
  · exact C24_int8_sound _ _ _ _ 35 (by simp) ⟨by simp, by simp⟩

/-! ## 16 buckets -/

/-- The page bitmap after adding the values of `vs` to `bm`, in order. -/
def addAll16 (bm : BitVec 16) : List Int → Res (BitVec 16)
  | [] => .ok bm
  | v :: vs => do
    let b ← updateBitmapInt16 v bm
    addAll16 b vs

theorem addAll16_eq (vs : List Int) (hvs : ∀ v ∈ vs, v ≤ 2147483630) (bm : BitVec 16) :
    addAll16 bm vs = .ok (vs.foldl (fun b v => b ||| bit 16 (pos16 v)) bm) := by
  induction vs generalizing bm with
  | nil => rfl
  | cons v vs ih =>
    unfold addAll16
    rw [update16_eq v (hvs v (by simp)), Res.ok_bind, ih (fun u hu => hvs u (by simp [hu]))]
    rfl

/-- C24, 16 buckets, for values and bounds up to 2147483630: nothing is undefined and a page with a matching value
overlaps the query.
Missing: values in 2147483631..2147483647 (`C24_int16_false`: the loop counter overflows), and the `inBitmap`
part of the claim (`C24_inBitmap16_false`). -/
theorem C24_int16_sound_partial (bm : BitVec 16) (vs : List Int) (min max : Option Int) (v : Int) (hv : v ∈ vs)
    (hvs : ∀ u ∈ vs, u ≤ 2147483630) (hmin : ∀ lo, min = some lo → lo ≤ 2147483630)
    (hmax : ∀ hi, max = some hi → hi ≤ 2147483630) (hr : Spec.inRange min max v) :
    ∃ pb qb, addAll16 bm vs = .ok pb ∧ buildBitmapInt16FromRange min max = .ok qb ∧ Spec.overlap pb qb := by
  refine ⟨_, _, addAll16_eq vs hvs bm, build16_eq min max hmin hmax, ?_⟩
  exact rangeMask_overlap pos16_lt ((foldl_or_getLsbD pos16 pos16_lt vs bm _).mpr (.inr ⟨v, hv, rfl⟩))
    (fun lo h => pos16_anti (hr.1 lo h)) (fun hi h => pos16_anti (hr.2 hi h))

/-- A concrete page and query. -/
example : addAll16 0#16 [330, 500, 10] = .ok 0xc200#16 ∧
    buildBitmapInt16FromRange (some 400) (some 600) = .ok 0x1fe0#16 := by decide +kernel

/-- C24, `inBitmapInt16` exactly, for values up to 2147483630 (`_partial`): it answers "yes" if and only if adding the value would
set no new bit and the value lies above 530, in one of the last eight buckets.
Missing: "yes" for the values up to 530 (`C24_inBitmap16_false`). -/
theorem C24_inBitmap16_partial (bm : BitVec 16) (v : Int) (hv : v ≤ 2147483630) :
    ∃ r, inBitmapInt16 v bm = .ok r ∧ (r ≠ 0 ↔ 530 < v ∧ updateBitmapInt16 v bm = .ok bm) := by
  unfold inBitmapInt16
  rw [update16_eq v hv, update16_eq v hv, Res.ok_bind]
  refine ⟨_, rfl, ?_⟩
  rw [ne_eq, retInt8_eq_zero, BitVec.zero_or, ← ne_eq, bit_and_low bm (pos16_lt v), Res.ok.injEq, or_bit_eq_self bm (pos16_lt v)]
  have : pos16 v < 8 ↔ 530 < v := by unfold pos16 cnt16; omega
  rw [this]

/-- Both answers occur, also for values that were added. -/
example : inBitmapInt16 540 0x0080#16 = .ok (-128) ∧ inBitmapInt16 600 0x0080#16 = .ok 0 ∧ inBitmapInt16 400 0xffff#16 = .ok 0 := by
  decide +kernel

/-! ## 64 buckets -/

/-- The page bitmap after adding the values of `vs` to `bm`, in order. -/
def addAll64 (bm : BitVec 64) (vs : List Int) : BitVec 64 := vs.foldl (fun b v => updateBitmapInt64 v b) bm

/-- C25 restricted to bounds whose bucket lies in the same byte of the bitmap as the value's bucket (or that are
absent), i.e. within one stretch of 80 consecutive values.
Missing: everything else; the claim is then false, exactly (`C25_false`, `C25_min_hidden`). -/
theorem C25_sound_partial (bm : BitVec 64) (vs : List Int) (min max : Option Int) (v : Int) (hv : v ∈ vs)
    (hr : Spec.inRange min max v)
    (hlo : ∀ lo, min = some lo → (Max.max 0 (v - 311) / 80) = (Max.max 0 (lo - 311) / 80) ∨ 871 ≤ lo)
    (hhi : ∀ hi, max = some hi → (Max.max 0 (v - 311) / 80) = (Max.max 0 (hi - 311) / 80) ∨ 871 ≤ v) :
    Spec.overlap (addAll64 bm vs) (buildBitmapInt64FromRange min max) := by
  rw [build64_eq]
  refine rangeMask_overlap pos64_lt (v := v) ?_ ?_ ?_
  · unfold addAll64
    simp only [update64_eq]
    exact (foldl_or_getLsbD pos64 pos64_lt vs bm _).mpr (.inr ⟨v, hv, rfl⟩)
  · intro lo h
    have := hlo lo h
    have := hr.1 lo h
    unfold pos64 cnt64
    omega
  · intro hi h
    have := hhi hi h
    have := hr.2 hi h
    unfold pos64 cnt64
    omega

/-- A concrete page and query meeting the hypotheses. -/
example : Spec.overlap (addAll64 0#64 [500, 335]) (buildBitmapInt64FromRange (some 320) (some 390)) :=
  C25_sound_partial _ _ _ _ 335 (by simp) ⟨by simp, by simp⟩ (by intro lo h; cases h; decide) (by intro hi h; cases h; decide)

/-- C25, `inBitmapInt64` exactly (`_partial`): it answers "yes" if and only if adding the value would set no new bit and the value
lies at or below 390, in one of the first eight buckets.
Missing: "yes" for larger values (`C25_inBitmap64_false`). -/
theorem C25_inBitmap64_partial (bm : BitVec 64) (v : Int) : inBitmapInt64 v bm ≠ 0 ↔ v ≤ 390 ∧ updateBitmapInt64 v bm = bm := by
  unfold inBitmapInt64
  rw [update64_eq, update64_eq, ne_eq, retInt8_eq_zero, BitVec.zero_or, ← ne_eq, bit_and_low bm (pos64_lt v),
    or_bit_eq_self bm (pos64_lt v)]
  have : pos64 v < 8 ↔ v ≤ 390 := by unfold pos64 cnt64; omega
  rw [this]

/-- Both answers occur, also for values that were added. -/
example : inBitmapInt64 325 0xffff#64 = 64 ∧ inBitmapInt64 325 0x80#64 = 0 ∧ inBitmapInt64 400 0xffff#64 = 0 := by decide +kernel

end EDB
