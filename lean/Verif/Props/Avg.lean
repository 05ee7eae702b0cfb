import Verif.Props.Query
import Verif.Proofs.Avg

/-!
# Property C77: AVG is close to the mean

`C50` says which sum and count AVG divides.  Here the division itself is the one of a floating-point format with any rounding mode, and
the result is compared with the arithmetic mean of the column.
-/

namespace EDB

/-- The values of column `col` in a group of records. -/
abbrev colVals (s : Schema) (col : Nat) (g : List (List Byte)) : List Int := g.map fun r => Spec.field s r col

/-- What is stored is the bytes of `q`, for a number `q` with the property `P`. -/
def AvgIs (F : FpFormat) (a0 : AggState) (size : Int) (s : Schema) (col : Nat) (g : List (List Byte)) (P : ℚ → Prop) : Prop :=
  ∃ q, P q ∧ aggOut a0 (avgAgg F.quot s col size) g = leBytes (avgSize size).natAbs (F.enc q)

/-- The groups whose sum AVG computes (`C50_avg_unsigned`, `C50_avg_signed_partial`): an unsigned column of at most 8 bytes with a sum
below 2^64, or a signed one of at most 4 bytes with every partial sum in `int64_t`. -/
def AvgDefined (s : Schema) (col : Nat) (g : List (List Byte)) : Prop :=
  Spec.width s < 2 ^ 16 ∧ col < s.length ∧ g ≠ [] ∧ g.length < 2 ^ 32 ∧
  ((0 < s.getD col 0 ∧ s.getD col 0 ≤ 8 ∧ (colVals s col g).sum < 2 ^ 64) ∨
   (s.getD col 0 < 0 ∧ -4 ≤ s.getD col 0 ∧ (∀ r ∈ g, r.length = Spec.width s) ∧
    ∀ k ≤ g.length, -(2 ^ 63) ≤ (colVals s col (g.take k)).sum ∧ (colVals s col (g.take k)).sum < 2 ^ 63))

theorem avg_out {F : FpFormat} {a0 : AggState} {size : Int} {s : Schema} {col : Nat} {g : List (List Byte)} (h : AvgDefined s col g) :
    aggOut a0 (avgAgg F.quot s col size) g = leBytes (avgSize size).natAbs (F.enc (F.avg (colVals s col g).sum g.length)) := by
  obtain ⟨hw, hc, _, hn, ⟨h0, h8, hz⟩ | ⟨h0, h4, hl, hz⟩⟩ := h
  · exact (C50_avg_unsigned a0 F.quot size s col g hw hc h0 h8 hn hz).1
  · exact (C50_avg_signed_partial a0 F.quot size s col g hw hc h0 h4 hl hn hz).1

theorem avg_sum_lt {s : Schema} {col : Nat} {g : List (List Byte)} (h : AvgDefined s col g) : (colVals s col g).sum.natAbs < 2 ^ 64 := by
  obtain ⟨hw, hc, _, hn, ⟨h0, h8, hz⟩ | ⟨h0, h4, hl, hz⟩⟩ := h
  · have := sum_uval_field (by omega) g (s := s) (col := col)
    simp only [colVals] at *
    omega
  · have := hz g.length le_rfl
    rw [List.take_length] at this
    omega

/-- C77: AVG differs from the mean of the column by at most the fraction 2^(3-b) of it, b = 24 for `float` and 53 for `double`, in every
rounding mode. -/
theorem C77_error (F : FpFormat) (h4 : 4 ≤ F.bits) (h64 : F.bits ≤ 64) (a0 : AggState) (size : Int) (s : Schema) (col : Nat)
    (g : List (List Byte)) (h : AvgDefined s col g) :
    AvgIs F a0 size s col g fun q =>
      |q - Spec.mean (colVals s col g)| ≤ 2 ^ ((3 : ℤ) - F.bits) * |Spec.mean (colVals s col g)| := by
  refine ⟨_, ?_, avg_out h⟩
  have := F.avg_err h4 h64 (avg_sum_lt h) (List.length_pos_iff.mpr h.2.2.1) h.2.2.2.1
  unfold Spec.mean
  rwa [List.length_map]

/-- C77: if the sum and the count have at most b bits, AVG is the mean, rounded once (`_partial`: `C77_false_float`). -/
theorem C77_rounded_partial (F : FpFormat) (a0 : AggState) (size : Int) (s : Schema) (col : Nat) (g : List (List Byte))
    (h : AvgDefined s col g) (hs : (colVals s col g).sum.natAbs ≤ 2 ^ F.bits) (hn : g.length ≤ 2 ^ F.bits) :
    AvgIs F a0 size s col g fun q => q = F.rnd (Spec.mean (colVals s col g)) := by
  refine ⟨_, ?_, avg_out h⟩
  unfold FpFormat.avg Spec.mean
  rw [F.rnd_int _ hs, F.rnd_nat _ hn, List.length_map]

theorem sum_bounds (l : List Int) (lo hi : Int) (h : ∀ x ∈ l, lo ≤ x ∧ x ≤ hi) : lo * l.length ≤ l.sum ∧ l.sum ≤ hi * l.length := by
  induction l with
  | nil => simp
  | cons a l ih =>
    have := ih fun x hx => h x (List.mem_cons_of_mem _ hx)
    have := h a List.mem_cons_self
    simp only [List.sum_cons, List.length_cons]
    push_cast
    constructor <;> linarith

/-- C77: under the same condition AVG lies between any bounds of the column that have at most b bits; in particular between its
smallest and its largest value (`_partial`: `C77_false_float`, `C77_false_double`). -/
theorem C77_between_partial (F : FpFormat) (a0 : AggState) (size : Int) (s : Schema) (col : Nat) (g : List (List Byte))
    (h : AvgDefined s col g) (hs : (colVals s col g).sum.natAbs ≤ 2 ^ F.bits) (hn : g.length ≤ 2 ^ F.bits) (lo hi : Int)
    (hlo : lo.natAbs ≤ 2 ^ F.bits) (hhi : hi.natAbs ≤ 2 ^ F.bits) (hv : ∀ x ∈ colVals s col g, lo ≤ x ∧ x ≤ hi) :
    AvgIs F a0 size s col g fun q => (lo : ℚ) ≤ q ∧ q ≤ hi := by
  obtain ⟨q, hq, e⟩ := C77_rounded_partial F a0 size s col g h hs hn
  refine ⟨q, ?_, e⟩
  have hb := sum_bounds _ lo hi hv
  have hl : (0 : ℚ) < (colVals s col g).length := by
    rw [List.length_map]
    exact_mod_cast List.length_pos_iff.mpr h.2.2.1
  have b1 : (lo : ℚ) ≤ Spec.mean (colVals s col g) := by
    unfold Spec.mean
    rw [le_div_iff₀ hl]
    exact_mod_cast hb.1
  have b2 : Spec.mean (colVals s col g) ≤ hi := by
    unfold Spec.mean
    rw [div_le_iff₀ hl]
    exact_mod_cast hb.2
  rw [hq]
  exact ⟨by rw [← F.rnd_int lo hlo]; exact F.rnd_mono b1, by rw [← F.rnd_int hi hhi]; exact F.rnd_mono b2⟩

/-- C77: a mean that is a whole number is computed exactly if the sum and the count have at most b bits (`_partial`). -/
theorem C77_exact_partial (F : FpFormat) (a0 : AggState) (size : Int) (s : Schema) (col : Nat) (g : List (List Byte))
    (h : AvgDefined s col g) (hs : (colVals s col g).sum.natAbs ≤ 2 ^ F.bits) (hn : g.length ≤ 2 ^ F.bits) (z : Int)
    (hz : Spec.mean (colVals s col g) = z) : AvgIs F a0 size s col g fun q => q = Spec.mean (colVals s col g) := by
  obtain ⟨q, hq, e⟩ := C77_rounded_partial F a0 size s col g h hs hn
  refine ⟨q, ?_, e⟩
  have hl : (0 : ℚ) < (colVals s col g).length := by
    rw [List.length_map]
    exact_mod_cast List.length_pos_iff.mpr h.2.2.1
  have hm : (colVals s col g).sum = z * (colVals s col g).length := by
    have : ((colVals s col g).sum : ℚ) = z * (colVals s col g).length := by
      rw [← hz]; unfold Spec.mean; field_simp
    exact_mod_cast this
  have : z.natAbs ≤ (colVals s col g).sum.natAbs := by
    rw [hm, Int.natAbs_mul, Int.natAbs_natCast]
    have : 0 < (colVals s col g).length := by exact_mod_cast hl
    exact Nat.le_mul_of_pos_right _ this
  rw [hq, hz, F.rnd_int z (this.trans hs)]

/-- `float`, with a stand-in for the bytes. -/
def float32 (enc : ℚ → Nat) : FpFormat := ⟨24, binary32, binary32, enc⟩

/-- `double` of 8 bytes. -/
def float64 (enc : ℚ → Nat) : FpFormat := ⟨53, binary64, binary64, enc⟩

/-- Three records with the values 5, -1 and 11: the hypotheses hold, and the average is 5. -/
example (enc : ℚ → Nat) : AvgDefined [2, -1] 1 [[1, 0, 5], [2, 0, 0xff], [3, 0, 0x0b]] ∧
    colVals [2, -1] 1 [[1, 0, 5], [2, 0, 0xff], [3, 0, 0x0b]] = [5, -1, 11] ∧
    AvgIs (float32 enc) (.cnt 0) 4 [2, -1] 1 [[1, 0, 5], [2, 0, 0xff], [3, 0, 0x0b]] fun q => q = 5 := by
  have hv : colVals [2, -1] 1 [[1, 0, 5], [2, 0, 0xff], [3, 0, 0x0b]] = [5, -1, 11] := by decide +kernel
  have hd : AvgDefined [2, -1] 1 [[1, 0, 5], [2, 0, 0xff], [3, 0, 0x0b]] := by
    refine ⟨by decide, by decide, by simp, by decide, .inr ⟨by decide, by decide, by decide, ?_⟩⟩
    decide +kernel
  have hm : Spec.mean [5, -1, 11] = 5 := by norm_num [Spec.mean]
  refine ⟨hd, hv, ?_⟩
  have := C77_exact_partial (float32 enc) (.cnt 0) 4 [2, -1] 1 _ hd
    (by rw [hv]; show _ ≤ 2 ^ 24; decide) (by show _ ≤ 2 ^ 24; decide) 5 (by rw [hv, hm]; norm_num)
  rwa [hv, hm] at this

end EDB
