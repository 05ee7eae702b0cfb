import Verif.Model.Utility
import Verif.Spec.Bitmap
import Mathlib.Tactic.SplitIfs
import Mathlib.Tactic.ByContra
import Mathlib.Logic.Function.Iterate

/-! Helper lemmas: bit masks used by the bitmap functions. -/

namespace EDB

/-- A single bit. -/
def bit (w i : Nat) : BitVec w := 1#w <<< i

theorem bit_getLsbD {w i j : Nat} (hi : i < w) : (bit w i).getLsbD j = decide (j = i) := by
  unfold bit
  rw [BitVec.getLsbD_shiftLeft, BitVec.getLsbD_one]
  by_cases h : j = i
  · subst h; simp; omega
  · simp only [h, decide_false, Bool.and_eq_false_iff, decide_eq_false_iff_not, Bool.not_eq_false',
      decide_eq_true_eq]
    omega

theorem bit_toNat {w i : Nat} (hi : i < w) : (bit w i).toNat = 2 ^ i := by
  unfold bit
  have : 2 ^ i < 2 ^ w := Nat.pow_lt_pow_right (by omega) hi
  rw [BitVec.toNat_shiftLeft, BitVec.toNat_ofNat, Nat.shiftLeft_eq, Nat.mod_eq_of_lt (a := 1), Nat.one_mul,
    Nat.mod_eq_of_lt this]
  exact Nat.one_lt_two_pow (by omega)

theorem bit_sub_one_getLsbD {w i j : Nat} (hi : i < w) : (bit w i - 1#w).getLsbD j = decide (j < i) := by
  have h1 : 2 ^ i < 2 ^ w := Nat.pow_lt_pow_right (by omega) hi
  have h0 : 0 < 2 ^ i := Nat.two_pow_pos i
  have e : (bit w i - 1#w).toNat = 2 ^ i - 1 := by
    rw [BitVec.toNat_sub, bit_toNat hi, BitVec.toNat_ofNat, Nat.mod_eq_of_lt (a := 1) (by omega)]
    rw [show 2 ^ w - 1 + 2 ^ i = 2 ^ w + (2 ^ i - 1) from by omega, Nat.add_mod_left, Nat.mod_eq_of_lt (by omega)]
  rw [BitVec.getLsbD, e, Nat.testBit_two_pow_sub_one]

theorem lowMask_getLsbD {w i j : Nat} (hi : i < w) : (bit w i ||| (bit w i - 1#w)).getLsbD j = decide (j ≤ i) := by
  rw [BitVec.getLsbD_or, bit_getLsbD hi, bit_sub_one_getLsbD hi, ← Bool.decide_or]
  exact decide_eq_decide.mpr (by omega)

theorem highMask_getLsbD {w i j : Nat} (hi : i < w) (hj : j < w) :
    (~~~(bit w i - 1#w)).getLsbD j = decide (i ≤ j) := by
  rw [BitVec.getLsbD_not, bit_sub_one_getLsbD hi]
  by_cases h : i ≤ j
  · simp [hj, h]
  · simp [hj, h]; omega

/-- Every `build...FromRange` has this shape. -/
def rangeMask (w : Nat) (pos : Int → Nat) (min max : Option Int) : BitVec w :=
  match min, max with
  | none, none => BitVec.allOnes w
  | some lo, none => bit w (pos lo) ||| (bit w (pos lo) - 1#w)
  | none, some hi => ~~~(bit w (pos hi) - 1#w)
  | some lo, some hi => (bit w (pos lo) ||| (bit w (pos lo) - 1#w)) &&& ~~~(bit w (pos hi) - 1#w)

theorem rangeMask_getLsbD {w : Nat} {pos : Int → Nat} {min max : Option Int} (j : Nat) (hj : j < w)
    (hpos : ∀ v, pos v < w) :
    (rangeMask w pos min max).getLsbD j = true ↔
      (∀ lo, min = some lo → j ≤ pos lo) ∧ (∀ hi, max = some hi → pos hi ≤ j) := by
  unfold rangeMask
  cases min <;> cases max <;>
    simp only [BitVec.getLsbD_and, lowMask_getLsbD (hpos _), highMask_getLsbD (hpos _) hj, BitVec.getLsbD_allOnes,
      Bool.and_eq_true, decide_eq_true_eq] <;> simp [hj]

/-- A bitmap that covers bit `pos v` overlaps the query bitmap if `pos` is antitone between `v` and the bounds. -/
theorem rangeMask_overlap {w : Nat} {pos : Int → Nat} {min max : Option Int} {v : Int} {bm : BitVec w}
    (hpos : ∀ v, pos v < w) (hbm : bm.getLsbD (pos v) = true)
    (hlo : ∀ lo, min = some lo → pos v ≤ pos lo) (hhi : ∀ hi, max = some hi → pos hi ≤ pos v) :
    Spec.overlap bm (rangeMask w pos min max) :=
  ⟨pos v, hbm, (rangeMask_getLsbD _ (hpos v) hpos).mpr ⟨hlo, hhi⟩⟩

theorem or_bit_getLsbD {w i j : Nat} (bm : BitVec w) (hi : i < w) :
    (bm ||| bit w i).getLsbD j = (bm.getLsbD j || decide (j = i)) := by
  rw [BitVec.getLsbD_or, bit_getLsbD hi]

/-- Bits set by a sequence of single-bit updates. -/
theorem foldl_or_getLsbD {w : Nat} (pos : Int → Nat) (hpos : ∀ v, pos v < w) (vs : List Int) (bm : BitVec w) (j : Nat) :
    (vs.foldl (fun b v => b ||| bit w (pos v)) bm).getLsbD j = true ↔
      bm.getLsbD j = true ∨ ∃ v ∈ vs, pos v = j := by
  induction vs generalizing bm with
  | nil => simp
  | cons v vs ih =>
    rw [List.foldl_cons, ih, or_bit_getLsbD _ (hpos v)]
    simp only [Bool.or_eq_true, decide_eq_true_eq, List.mem_cons, exists_eq_or_imp]
    constructor
    · rintro ((h | h) | h)
      · exact .inl h
      · exact .inr (.inl h.symm)
      · exact .inr (.inr h)
    · rintro (h | h | h)
      · exact .inl (.inl h)
      · exact .inl (.inr h.symm)
      · exact .inr h

theorem bit_and_ne_zero {w i : Nat} (bm : BitVec w) (hi : i < w) : bit w i &&& bm ≠ 0#w ↔ bm.getLsbD i = true := by
  constructor
  · intro h
    by_contra hc
    apply h
    apply BitVec.eq_of_getLsbD_eq
    intro j hj
    rw [BitVec.getLsbD_and, bit_getLsbD hi, BitVec.getLsbD_zero]
    by_cases e : j = i
    · subst e; simp [hc]
    · simp [e]
  · intro h e
    have := congrArg (fun b => b.getLsbD i) e
    simp [BitVec.getLsbD_and, bit_getLsbD hi, h] at this

/-! ## The three bucket functions -/

/-- Bit position of the bucket of `v` in the 8-bucket bitmap. -/
def pos8 (v : Int) : Nat :=
  if v < 10 then 7 else if v < 20 then 6 else if v < 30 then 5 else if v < 40 then 4 else if v < 50 then 3
  else if v < 60 then 2 else if v < 100 then 1 else 0

theorem pos8_lt (v : Int) : pos8 v < 8 := by unfold pos8; split_ifs <;> omega

theorem pos8_anti {v w : Int} (h : v ≤ w) : pos8 w ≤ pos8 v := by unfold pos8; split_ifs <;> omega

theorem update8_eq (v : Int) (bm : BitVec 8) : updateBitmapInt8 v bm = bm ||| bit 8 (pos8 v) := by
  unfold updateBitmapInt8 pos8
  repeat' split
  all_goals rfl

theorem build8_eq (min max : Option Int) : buildBitmapInt8FromRange min max = rangeMask 8 pos8 min max := by
  have z : ∀ x : BitVec 8, 0#8 ||| x = x := by intro x; simp
  unfold buildBitmapInt8FromRange rangeMask
  cases min <;> cases max <;> simp only [update8_eq, z] <;> rfl

/-- Bucket number in the 16-bucket bitmap: how many cut-offs 320, 350, ... lie below `v`. -/
def cnt16 (v : Int) : Nat := ((v - 320 + 29) / 30).toNat

/-- Bit position of the bucket of `v` in the 16-bucket bitmap. -/
def pos16 (v : Int) : Nat := 15 - cnt16 v

theorem pos16_lt (v : Int) : pos16 v < 16 := by unfold pos16; omega

theorem pos16_anti {v w : Int} (h : v ≤ w) : pos16 w ≤ pos16 v := by unfold pos16 cnt16; omega

theorem loop16_spec (v : Int) (hv : v ≤ 2147483630) : ∀ (f k : Nat) (cur : Int), cur = 320 + 30 * k → k ≤ cnt16 v →
    cnt16 v - k < f → ∀ num, loop16 v f cur num = .ok ((fun x => x / 2#16)^[cnt16 v - k] num)
  | 0, k, cur, _, _, h, num => by omega
  | f + 1, k, cur, hc, hk, hf, num => by
    unfold loop16
    have hcnt : (cnt16 v : Int) = max 0 ((v - 320 + 29) / 30) := by unfold cnt16; omega
    by_cases h : v > cur
    · rw [if_pos h, if_neg (by omega)]
      have : k + 1 ≤ cnt16 v := by omega
      rw [loop16_spec v hv f (k + 1) (cur + 30) (by omega) this (by omega)]
      rw [show cnt16 v - k = (cnt16 v - (k + 1)) + 1 from by omega, Function.iterate_succ_apply]
    · rw [if_neg h]
      have : cnt16 v - k = 0 := by omega
      rw [this]
      rfl

theorem halve_zero (k : Nat) : (fun x : BitVec 16 => x / 2#16)^[k] 0#16 = 0#16 := by
  induction k with
  | zero => rfl
  | succ k ih => rw [Function.iterate_succ_apply]; exact ih

theorem halve_pow (k : Nat) :
    (if (fun x : BitVec 16 => x / 2#16)^[k] 32768#16 = 0#16 then 1#16 else (fun x => x / 2#16)^[k] 32768#16)
      = bit 16 (15 - k) := by
  by_cases h : k ≤ 16
  · have : ∀ i : Fin 17, (if (fun x : BitVec 16 => x / 2#16)^[i.val] 32768#16 = 0#16 then 1#16
        else (fun x => x / 2#16)^[i.val] 32768#16) = bit 16 (15 - i.val) := by decide +kernel
    exact this ⟨k, by omega⟩
  · obtain ⟨m, rfl⟩ : ∃ m, k = m + 16 := ⟨k - 16, by omega⟩
    have e : (fun x : BitVec 16 => x / 2#16)^[m + 16] 32768#16 = 0#16 := by
      rw [Function.iterate_add_apply]
      have : (fun x : BitVec 16 => x / 2#16)^[16] 32768#16 = 0#16 := by decide +kernel
      rw [this, halve_zero]
    rw [e, if_pos rfl, show 15 - (m + 16) = 0 from by omega]
    rfl

theorem update16_eq (v : Int) (hv : v ≤ 2147483630) (bm : BitVec 16) :
    updateBitmapInt16 v bm = .ok (bm ||| bit 16 (pos16 v)) := by
  unfold updateBitmapInt16
  rw [loop16_spec v hv _ 0 320 (by omega) (by omega) (by unfold cnt16; omega)]
  simp only [Res.ok_bind]
  rw [show cnt16 v - 0 = cnt16 v from rfl, halve_pow]
  rfl

theorem build16_eq (min max : Option Int) (h1 : ∀ lo, min = some lo → lo ≤ 2147483630)
    (h2 : ∀ hi, max = some hi → hi ≤ 2147483630) :
    buildBitmapInt16FromRange min max = .ok (rangeMask 16 pos16 min max) := by
  have z : ∀ x : BitVec 16, 0#16 ||| x = x := by intro x; simp
  unfold buildBitmapInt16FromRange rangeMask
  cases min <;> cases max <;> simp_all [update16_eq]

/-- Bucket number in the 64-bucket bitmap. -/
def cnt64 (v : Int) : Nat := min 63 ((v - 320 + 9) / 10).toNat

theorem loop64_spec (v : Int) : ∀ (f k : Nat), k ≤ cnt64 v → f + k = 63 → loop64 v f (320 + 10 * k) k = cnt64 v
  | 0, k, hk, hf => by unfold loop64; unfold cnt64 at hk ⊢; omega
  | f + 1, k, hk, hf => by
    unfold loop64
    by_cases h : v > 320 + 10 * k
    · rw [if_pos h, show (320 + 10 * (k : Int) + 10) = 320 + 10 * ((k + 1 : Nat) : Int) from by omega]
      exact loop64_spec v f (k + 1) (by unfold cnt64 at hk ⊢; omega) (by omega)
    · rw [if_neg h]
      unfold cnt64 at hk ⊢; omega

/-- Bit position of the bucket of `v` in the 64-bucket bitmap. -/
def pos64 (v : Int) : Nat := 8 * (cnt64 v / 8) + (7 - cnt64 v % 8)

theorem pos64_lt (v : Int) : pos64 v < 64 := by unfold pos64 cnt64; omega

theorem update64_eq (v : Int) (bm : BitVec 64) : updateBitmapInt64 v bm = bm ||| bit 64 (pos64 v) := by
  unfold updateBitmapInt64
  have := loop64_spec v 63 0 (by omega) (by omega)
  rw [show (320 + 10 * ((0 : Nat) : Int)) = 320 from rfl] at this
  rw [this]
  rfl

theorem build64_eq (min max : Option Int) : buildBitmapInt64FromRange min max = rangeMask 64 pos64 min max := by
  have z : ∀ x : BitVec 64, 0#64 ||| x = x := by intro x; simp
  unfold buildBitmapInt64FromRange rangeMask
  cases min <;> cases max <;> simp only [update64_eq, z]

end EDB
