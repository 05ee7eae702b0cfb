import Verif.Proofs.Estimate

/-! Helper lemmas: the interpolation of the spline computed in `long double`. -/

namespace EDB

open Spec (Log Rnd)

theorem floor_toNat {v : ℚ} {n : ℕ} (h1 : (n : ℚ) ≤ v) (h2 : v < ((n + 1 : ℕ) : ℚ)) : ⌊v⌋.toNat = n := by
  have : ⌊v⌋ = (n : ℤ) := by
    rw [Int.floor_eq_iff]
    push_cast at h2 ⊢
    exact ⟨h1, h2⟩
  rw [this]
  rfl

theorem Spline.interpQ_eq {b : Nat} (q : Rnd b) (hb : b ≤ 120) {s : Spline} {key i : Nat}
    (hlt : (s.pt (i - 1)).1 < (s.pt i).1) (hD : (s.pt i).1 - (s.pt (i - 1)).1 ≤ 2 ^ b)
    (hX : 2 * u64 (((key : Int) - (s.pt (i - 1)).1) * (((s.pt i).2 : Int) - (s.pt (i - 1)).2)) ≤ 2 ^ b)
    (h32 : u64 (((key : Int) - (s.pt (i - 1)).1) * (((s.pt i).2 : Int) - (s.pt (i - 1)).2)) /
      ((s.pt i).1 - (s.pt (i - 1)).1) < 2 ^ 32) :
    s.interpQ q key i = s.interp key i := by
  unfold Spline.interpQ Spline.interp
  simp only
  have hne : ¬ (s.pt i).1 = (s.pt (i - 1)).1 := by omega
  rw [if_neg hne, if_neg hne]
  obtain ⟨q1, q2⟩ := FloatR.quot q hb (show 0 < (s.pt i).1 - (s.pt (i - 1)).1 by omega) hD hX
  have h3 : q.f (q.f (u64 (((key : Int) - (s.pt (i - 1)).1) * (((s.pt i).2 : Int) - (s.pt (i - 1)).2)) : ℕ) /
      q.f (((s.pt i).1 - (s.pt (i - 1)).1 : Nat) : ℚ)) < 2 ^ 32 := by
    refine lt_of_lt_of_le q2 ?_
    exact_mod_cast h32
  rw [if_pos h3, floor_toNat q1 q2]

theorem Spline.Inv.findQ {s : Spline} {h : Nat → Nat} {a e : Nat} (I : Spline.Inv s h a e) (F : Spline.Feed h s.maxErr a e)
    (hae : a < e) {cmp : Nat → Nat → Int} {K key : Nat} (hc : CmpOk cmp K) (hk : key < K)
    (hK : ∀ p, a ≤ p → p < e → h p < K) {lo : Nat} (hlo : ∀ p, a ≤ p → p < e → lo ≤ h p) {b : Nat} (q : Rnd b) (hb : b ≤ 120)
    (hbits : 2 * ((K - lo) * e) ≤ 2 ^ b) (h64 : (K - lo) * e < 2 ^ 64) (he : e ≤ 2 ^ 32) :
    s.findQ q cmp key = s.find cmp key := by
  unfold Spline.findQ Spline.find
  rcases Nat.eq_or_lt_of_le (show a + 1 ≤ e by omega) with heq | hlt
  · obtain ⟨c1, p1, -, -⟩ := I.one heq.symm
    rw [if_pos (Or.inr (by omega)), if_pos (Or.inr (by omega))]
  · have M := I.many (by omega)
    have two := M.two
    have last := M.last
    have hmono := F.mono
    have page_lt : ∀ i, i < s.count → a ≤ (s.pt i).2 ∧ (s.pt i).2 < e := by
      intro i hi
      constructor
      · rcases Nat.eq_zero_or_pos i with h0 | h0
        · rw [h0]; exact M.lo
        · have := M.asc 0 i h0 hi; have := M.lo; omega
      · rcases Nat.eq_or_lt_of_le (show i ≤ s.count - 1 by omega) with he | hl
        · rw [he]; omega
        · have := M.asc i (s.count - 1) hl (by omega); omega
    have asc : Spline.AscPts s K := by
      constructor
      · intro i j hij hj
        rw [M.pts i (by omega), M.pts j hj]
        exact hmono _ _ (page_lt i (by omega)).1 (M.asc i j hij hj) (page_lt j hj).2
      · intro i hi
        rw [M.pts i hi]
        exact hK _ (page_lt i hi).1 (page_lt i hi).2
    have k0 := asc.bound 0 (by omega)
    have kl := asc.bound (s.count - 1) (by omega)
    have e0 := hc.lt _ _ hk k0
    have el := hc.pos hk kl
    by_cases hlt0 : key < (s.pt 0).1
    · rw [if_pos (Or.inl (e0.mpr hlt0)), if_pos (Or.inl (e0.mpr hlt0))]
    · have n0 : ¬ (cmp key (s.pt 0).1 < 0 ∨ s.count ≤ 1) := by rw [e0]; omega
      rw [if_neg n0, if_neg n0]
      by_cases hgt : (s.pt (s.count - 1)).1 < key
      · rw [if_pos (el.mpr hgt), if_pos (el.mpr hgt)]
      · have n1 : ¬ cmp key (s.pt (s.count - 1)).1 > 0 := by rw [el]; exact hgt
        rw [if_neg n1, if_neg n1]
        obtain ⟨i, hi, hi1, hi2, hi3, hi4⟩ := Spline.search_ok hc asc hk two (by omega) (s.count + 1) 0 (s.count - 1) (by omega)
          (by omega) (by omega) (Or.inl rfl) (by omega)
        rw [show ((0 : Nat) : Int) = 0 from rfl, show ((s.count - 1 : Nat) : Int) = (s.count : Int) - 1 by omega] at hi
        rw [hi, Res.ok_bind, Res.ok_bind]
        have hX := page_lt i hi2
        have hP := page_lt (i - 1) (by omega)
        have hPX := M.asc (i - 1) i (by omega) hi2
        have hk1 := asc.asc (i - 1) i (by omega) hi2
        have l1 : lo ≤ (s.pt (i - 1)).1 := by rw [M.pts _ (by omega)]; exact hlo _ hP.1 hP.2
        have l2 := asc.bound i hi2
        generalize hpu : s.pt i = up at *
        generalize hpd : s.pt (i - 1) = dn at *
        have hm : (key - dn.1) * (up.2 - dn.2) ≤ (K - lo) * e := Nat.mul_le_mul (by omega) (by omega)
        have hprod : u64 (((key : Int) - dn.1) * ((up.2 : Int) - dn.2)) = (key - dn.1) * (up.2 - dn.2) := by
          apply u64_of_nat
          · push_cast [Nat.cast_sub hi3, Nat.cast_sub (le_of_lt hPX)]; rfl
          · omega
        have hKe : K - lo ≤ (K - lo) * e := Nat.le_mul_of_pos_right _ (by omega)
        apply Spline.interpQ_eq q hb
        · rw [hpu, hpd]; exact hk1
        · rw [hpu, hpd]; omega
        · rw [hpu, hpd, hprod]; omega
        · rw [hpu, hpd, hprod]
          refine lt_of_le_of_lt (b := up.2 - dn.2) ?_ (by omega)
          apply Nat.div_le_of_le_mul
          exact Nat.mul_le_mul_right _ (by omega)

theorem splineSearch_from (c : Cfg) (d : Data) (key : Nat) :
    splineSearch c d key = (do let r ← d.spl.find c.cmpKey key; searchFrom c d key r) := by
  unfold splineSearch searchFrom
  rcases d.spl.find c.cmpKey key with r | _ | _
  · simp only [Res.ok_bind]
    cases d.buffered <;> rfl
  · rfl
  · rfl

section
variable {r : Rnd 24} {c : Cfg} {lo K a : Nat} {L : Log}

theorem splineSearchQ_eq {b : Nat} (q : Rnd b) (hb : b ≤ 120) (hc : CmpOk c.cmpKey K) {P : Nat} (hB : Bounds c lo K P)
    (hbits : 2 * ((K - lo) * (P + c.maxErr)) ≤ 2 ^ b) {key : Nat} (hk : key < K) {d : Data} (S : Sim c lo K a d L)
    (hP : d.next ≤ P) (hnext : 0 < d.next) : splineSearchQ q c d key = splineSearch c d key := by
  have hlive := S.live hnext
  have ha : a < d.next := by have := S.amin; omega
  have F := S.feed hB hP ha
  have hn := S.next
  have hm : (K - lo) * d.next ≤ (K - lo) * (P + c.maxErr) := Nat.mul_le_mul_left _ (by omega)
  have hpr := hB.prod
  have hpg := hB.pages
  rw [splineSearch_from]
  unfold splineSearchQ
  rw [S.spl.findQ F ha hc hk (fun p _ h2 => (S.firstKey_bound (by omega)).2) (fun p _ h2 => (S.firstKey_bound (by omega)).1)
    q hb (by omega) (by omega) (by omega)]

theorem getQ_eq {b : Nat} (q : Rnd b) (hb : b ≤ 120) (hc : CmpOk c.cmpKey K) {P : Nat} (hB : Bounds c lo K P)
    (hbits : 2 * ((K - lo) * (P + c.maxErr)) ≤ 2 ^ b) {key : Nat} (hk : key < K) {d : Data} (S : Sim c lo K a d L)
    (hP : d.next ≤ P) : getQ r q c d key = getF r c d key := by
  unfold getQ getF getW
  by_cases h0 : d.next = 0
  · rw [if_pos h0, if_pos h0]
  · rw [if_neg h0, if_neg h0]
    have : getStoredQ r q c d key = getStoredW (searchNodeF r c) c d key := by
      unfold getStoredQ getStoredW
      rw [splineSearchQ_eq q hb hc hB hbits hk S hP (by omega)]
    rw [this]

end

end EDB
