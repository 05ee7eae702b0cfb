import Verif.Proofs.SplineAdd

/-! Helper lemmas: `splineFind` on a spline that satisfies the corridor invariant. -/

namespace EDB
namespace Spline

/-- The arithmetic of one interpolation. -/
theorem interp_bracket {h : Nat → Nat} {e P X p key : Nat} (S : Seg h e P X) (hPX : P < X) (hm : h P < h X)
    (hPp : P ≤ p) (hpX : p ≤ X) (hlo : h p ≤ key) (hhi : p < X → key < h (p + 1)) (hk : h P ≤ key) (hkX : key ≤ h X) :
    (key - h P) * (X - P) / (h X - h P) + P ≤ p + e ∧ p ≤ (key - h P) * (X - P) / (h X - h P) + P + e := by
  have hD : 0 < h X - h P := by omega
  constructor
  · suffices (key - h P) * (X - P) / (h X - h P) ≤ p - P + e by omega
    apply Nat.le_of_lt_succ
    rw [Nat.div_lt_iff_lt_mul hD]
    rcases Nat.eq_or_lt_of_le hpX with rfl | hlt
    · have : (key - h P) * (p - P) ≤ (p - P) * (h p - h P) := by
        rw [Nat.mul_comm]; exact Nat.mul_le_mul_left _ (by omega)
      have : (p - P) * (h p - h P) < (p - P + e + 1) * (h p - h P) := Nat.mul_lt_mul_of_pos_right (by omega) hD
      exact lt_of_le_of_lt ‹_› this
    · have h1 := (S (p + 1) (by omega) (by omega)).1
      have h2 := hhi hlt
      calc (key - h P) * (X - P) < (h (p + 1) - h P) * (X - P) := Nat.mul_lt_mul_of_pos_right (by omega) (by omega)
        _ = (X - P) * (h (p + 1) - h P) := Nat.mul_comm _ _
        _ ≤ _ := h1
        _ = _ := by congr 1; omega
  · suffices p - P - e ≤ (key - h P) * (X - P) / (h X - h P) by omega
    rw [Nat.le_div_iff_mul_le hD, Nat.sub_mul, Nat.mul_comm (key - h P)]
    have h1 := (S p hPp hpX).2
    have h2 : (X - P) * (h p - h P) ≤ (X - P) * (key - h P) := Nat.mul_le_mul_left _ (by omega)
    omega

theorem interp_le {h : Nat → Nat} {P X key : Nat} (hm : h P < h X) (hkX : key ≤ h X) :
    (key - h P) * (X - P) / (h X - h P) ≤ X - P := by
  apply Nat.div_le_of_le_mul
  exact Nat.mul_le_mul_right _ (by omega)

/-- What a lookup needs to know about the prediction for a key. -/
structure Good (h : Nat → Nat) (a b key : Nat) (r : Found) : Prop where
  lo : r.low ≤ r.loc
  hi : r.loc ≤ r.high
  inside : r.high < b
  bracket : ∀ p, a ≤ p → p < b → h p ≤ key → (p + 1 < b → key < h (p + 1)) → r.low ≤ p ∧ p ≤ r.high

theorem Inv.find {s : Spline} {h : Nat → Nat} {a b : Nat} (I : Inv s h a b) (F : Feed h s.maxErr a b) (hab : a < b)
    {cmp : Nat → Nat → Int} {K key : Nat} (hc : CmpOk cmp K) (hk : key < K) (hK : ∀ p, a ≤ p → p < b → h p < K) :
    ∃ r, s.find cmp key = .ok r ∧ Good h a b key r := by
  have hfirst := I.first hab
  rcases Nat.eq_or_lt_of_le (show a + 1 ≤ b by omega) with heq | hlt
  · -- one page
    subst heq
    obtain ⟨c1, p1, -, -⟩ := I.one rfl
    refine ⟨⟨a, a, a⟩, ?_, le_refl _, le_refl _, by simp, ?_⟩
    · unfold Spline.find
      rw [if_pos (Or.inr (by omega)), hfirst, p1]
      show Res.ok (⟨(a + a) / 2, a, a⟩ : Found) = _
      rw [show (a + a) / 2 = a by omega]
    · intro p h1 h2 _ _
      have : p = a := by omega
      subst this; exact ⟨le_refl _, le_refl _⟩
  · have M := I.many (by omega)
    have two := M.two
    have last := M.last
    have hmono := F.mono
    have page_lt : ∀ i, i < s.count → a ≤ (s.pt i).2 ∧ (s.pt i).2 < b := by
      intro i hi
      constructor
      · rcases Nat.eq_zero_or_pos i with h0 | h0
        · rw [h0]; exact M.lo
        · have := M.asc 0 i h0 hi; have := M.lo; omega
      · rcases Nat.eq_or_lt_of_le (show i ≤ s.count - 1 by omega) with he | hl
        · rw [he]; omega
        · have := M.asc i (s.count - 1) hl (by omega); omega
    have hmono_le : ∀ p q, a ≤ p → p ≤ q → q < b → h p ≤ h q := by
      intro p q h1 h2 h3
      rcases Nat.eq_or_lt_of_le h2 with rfl | hl
      · exact le_refl _
      · exact le_of_lt (hmono p q h1 hl h3)
    have asc : AscPts s K := by
      constructor
      · intro i j hij hj
        rw [M.pts i (by omega), M.pts j hj]
        exact hmono _ _ (page_lt i (by omega)).1 (M.asc i j hij hj) (page_lt j hj).2
      · intro i hi
        rw [M.pts i hi]
        exact hK _ (page_lt i hi).1 (page_lt i hi).2
    unfold Spline.find
    have k0 := asc.bound 0 (by omega)
    have kl := asc.bound (s.count - 1) (by omega)
    have e0 := hc.lt _ _ hk k0
    have el := hc.pos hk kl
    by_cases hlt0 : key < (s.pt 0).1
    · rw [if_pos (Or.inl (e0.mpr hlt0)), hfirst]
      have p0 := page_lt 0 (by omega)
      refine ⟨_, rfl, ?_, ?_, p0.2, ?_⟩
      · simp only; omega
      · simp only; omega
      · intro p h1 h2 h3 h4
        refine ⟨h1, ?_⟩
        by_contra hcon
        simp only at hcon
        have := hmono_le _ p p0.1 (by omega) h2
        rw [← M.pts 0 (by omega)] at this
        omega
    · rw [if_neg (by rw [e0]; omega)]
      by_cases hgt : (s.pt (s.count - 1)).1 < key
      · rw [if_pos (el.mpr hgt)]
        refine ⟨_, rfl, le_refl _, le_refl _, by simp only; omega, ?_⟩
        intro p h1 h2 h3 h4
        have hp : p = b - 1 := by
          by_contra hcon
          have := h4 (by omega)
          have := hmono_le (p + 1) (b - 1) (by omega) (by omega) (by omega)
          rw [M.pts _ (by omega), show (s.pt (s.count - 1)).2 = b - 1 by omega] at hgt
          omega
        simp only; omega
      · rw [if_neg (by rw [el]; exact hgt)]
        obtain ⟨i, hi, hi1, hi2, hi3, hi4⟩ := search_ok hc asc hk two (by omega) (s.count + 1) 0 (s.count - 1) (by omega)
          (by omega) (by omega) (Or.inl rfl) (by omega)
        rw [show ((0 : Nat) : Int) = 0 from rfl, show ((s.count - 1 : Nat) : Int) = (s.count : Int) - 1 by omega] at hi
        rw [hi, Res.ok_bind]
        have hX := page_lt i hi2
        have hP := page_lt (i - 1) (by omega)
        have S := M.seg (i - 1) (by omega)
        rw [show i - 1 + 1 = i by omega] at S
        have hPX := M.asc (i - 1) i (by omega) hi2
        have hXl : (s.pt i).2 ≤ (s.pt (s.count - 1)).2 := by omega
        rw [M.pts _ (by omega)] at hi3
        rw [M.pts i hi2] at hi4
        unfold interp
        simp only
        rw [M.pts i hi2, M.pts (i - 1) (by omega)]
        generalize (s.pt i).2 = X at *
        generalize (s.pt (i - 1)).2 = P at *
        have hm := hmono P X hP.1 hPX hX.2
        rw [if_neg (by omega)]
        have hprod : u64 (((key : Int) - h P) * ((X : Int) - P)) = (key - h P) * (X - P) := by
          apply u64_of_nat
          · push_cast [Nat.cast_sub hi3, Nat.cast_sub (le_of_lt hPX)]; rfl
          · have h1 : (key - h P) * (X - P) ≤ (X - P) * (h X - h P) := by
              rw [Nat.mul_comm]; exact Nat.mul_le_mul_left _ (by omega)
            have h2 := F.mul_lt (y := X - P) hP.1 hX.2 (by omega) (by omega)
            omega
        rw [hprod]
        have hq := interp_le hm hi4
        obtain ⟨q, hqq⟩ : ∃ q, (key - h P) * (X - P) / (h X - h P) = q := ⟨_, rfl⟩
        rw [hqq] at hq ⊢
        refine ⟨_, rfl, ?_, ?_, ?_, ?_⟩
        · simp only; split_ifs <;> omega
        · simp only; split_ifs <;> omega
        · simp only; split_ifs <;> omega
        · intro p h1 h2 h3 h4
          have hpP : P ≤ p := by
            by_contra hcon
            have := h4 (by omega)
            have := hmono_le (p + 1) P (by omega) (by omega) (by omega)
            omega
          have hpX : p ≤ X := by
            by_contra hcon
            have := hmono X p (by omega) (by omega) h2
            omega
          have hb := interp_bracket S hPX hm hpP hpX h3 (fun hl => h4 (by omega)) hi3 hi4
          simp only
          rw [hqq] at hb
          constructor
          · split_ifs <;> omega
          · split_ifs <;> omega

end Spline
end EDB
