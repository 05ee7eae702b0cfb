import Verif.Props.Avg

/-!
# C77: averages outside the range of the column
-/

namespace EDB

theorem avg_same {F : FpFormat} {s : Int} {q : ℚ} (h : F.avg s 3 = q) {a0 : AggState} {size : Int} {sc : Schema} {col : Nat}
    {g : List (List Byte)} (hd : AvgDefined sc col g) (hs : (colVals sc col g).sum = s) (hn : g.length = 3) :
    aggOut a0 (avgAgg F.quot sc col size) g = leBytes (avgSize size).natAbs (F.enc q) := by
  rw [avg_out hd, hs, hn, h]

/-- C77 is false for `float`: the average of three times 16777214, a number that `float` represents, is 16777213, less than each of them.
The sum 50331642 lies half way between two numbers of type `float` and becomes 50331640. -/
theorem C77_false_float (enc : ℚ → Nat) (a0 : AggState) : ∃ (s : Schema) (col : Nat) (g : List (List Byte)), AvgDefined s col g ∧
    (∀ x ∈ colVals s col g, x = 16777214) ∧ binary32.f 16777214 = 16777214 ∧
    aggOut a0 (avgAgg (float32 enc).quot s col 4) g = leBytes 4 (enc 16777213) := by
  have hv : colVals [4] 0 [[0xfe, 0xff, 0xff, 0], [0xfe, 0xff, 0xff, 0], [0xfe, 0xff, 0xff, 0]] = [16777214, 16777214, 16777214] := by
    decide +kernel
  have hd : AvgDefined [4] 0 [[0xfe, 0xff, 0xff, 0], [0xfe, 0xff, 0xff, 0], [0xfe, 0xff, 0xff, 0]] :=
    ⟨by decide, by decide, by simp, by decide, .inl ⟨by decide, by decide, by rw [hv]; decide⟩⟩
  have hf : ∀ x, binary32.f x = Spec.roundTo 24 toEven x := fun _ => rfl
  have hr : ∀ x : ℚ, 0 ≤ x → (float32 enc).rnd x = Spec.roundTo 24 toEven x := fun x h => if_neg (not_lt.mpr h)
  have ha : (float32 enc).avg 50331642 3 = 16777213 := by
    unfold FpFormat.avg
    have e1 : (float32 enc).rnd ((50331642 : ℤ) : ℚ) = 50331640 := by
      rw [hr _ (by norm_num), roundTo_eval _ 25 (by norm_num) (by norm_num)]
      norm_num [toEven, Spec.nearestEven]
    have e2 : (float32 enc).rnd ((3 : ℕ) : ℚ) = 3 := by
      have := (float32 enc).rnd_nat 3 (by show 3 ≤ 2 ^ 24; norm_num)
      simpa using this
    rw [e1, e2, hr _ (by norm_num), roundTo_eval _ 23 (by norm_num) (by norm_num)]
    norm_num [toEven, Spec.nearestEven]
  refine ⟨_, _, _, hd, by rw [hv]; simp, ?_, avg_same ha hd (by rw [hv]; rfl) rfl⟩
  have := FloatR.nat binary32 16777214 (by decide)
  simpa using this

/-- C77 is false for `double`: the same with three times 2^53 - 2 in a column of 8 bytes. -/
theorem C77_false_double (enc : ℚ → Nat) (a0 : AggState) : ∃ (s : Schema) (col : Nat) (g : List (List Byte)), AvgDefined s col g ∧
    (∀ x ∈ colVals s col g, x = 2 ^ 53 - 2) ∧ binary64.f (2 ^ 53 - 2) = 2 ^ 53 - 2 ∧
    aggOut a0 (avgAgg (float64 enc).quot s col 8) g = leBytes 8 (enc (2 ^ 53 - 3)) := by
  have hv : colVals [8] 0 [[0xfe, 0xff, 0xff, 0xff, 0xff, 0xff, 0x1f, 0], [0xfe, 0xff, 0xff, 0xff, 0xff, 0xff, 0x1f, 0],
      [0xfe, 0xff, 0xff, 0xff, 0xff, 0xff, 0x1f, 0]] = [2 ^ 53 - 2, 2 ^ 53 - 2, 2 ^ 53 - 2] := by
    decide +kernel
  have hd : AvgDefined [8] 0 [[0xfe, 0xff, 0xff, 0xff, 0xff, 0xff, 0x1f, 0], [0xfe, 0xff, 0xff, 0xff, 0xff, 0xff, 0x1f, 0],
      [0xfe, 0xff, 0xff, 0xff, 0xff, 0xff, 0x1f, 0]] :=
    ⟨by decide, by decide, by simp, by decide, .inl ⟨by decide, by decide, by rw [hv]; decide⟩⟩
  have hr : ∀ x : ℚ, 0 ≤ x → (float64 enc).rnd x = Spec.roundTo 53 toEven x := fun x h => if_neg (not_lt.mpr h)
  have ha : (float64 enc).avg (3 * 2 ^ 53 - 6) 3 = 2 ^ 53 - 3 := by
    unfold FpFormat.avg
    have e1 : (float64 enc).rnd ((3 * 2 ^ 53 - 6 : ℤ) : ℚ) = 3 * 2 ^ 53 - 8 := by
      rw [hr _ (by norm_num), roundTo_eval _ 54 (by norm_num) (by norm_num)]
      norm_num [toEven, Spec.nearestEven]
    have e2 : (float64 enc).rnd ((3 : ℕ) : ℚ) = 3 := by
      have := (float64 enc).rnd_nat 3 (by show 3 ≤ 2 ^ 53; norm_num)
      simpa using this
    rw [e1, e2, hr _ (by norm_num), roundTo_eval _ 52 (by norm_num) (by norm_num)]
    norm_num [toEven, Spec.nearestEven]
  refine ⟨_, _, _, hd, by rw [hv]; simp, ?_, avg_same ha hd (by rw [hv]; rfl) rfl⟩
  have := FloatR.nat binary64 (2 ^ 53 - 2) (by norm_num)
  norm_num at this ⊢
  exact this

end EDB
