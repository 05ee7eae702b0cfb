import Verif.Proofs.SplineInv

/-! Helper lemmas: `splineAdd`, `splineErase` and `cleanSpline` keep the corridor invariant. -/

namespace EDB
namespace Spline

/-- The ring after dropping `m` oldest points. -/
structure Dropped (s t : Spline) (m : Nat) : Prop where
  count : t.count = s.count - m
  pt : ∀ i, t.pt i = s.pt (i + m)
  size : t.size = s.size
  temp : t.temp = s.temp
  lastKey : t.lastKey = s.lastKey
  lastLoc : t.lastLoc = s.lastLoc
  lower : t.lower = s.lower
  upper : t.upper = s.upper
  first : t.first = s.first
  numAdd : t.numAdd = s.numAdd
  maxErr : t.maxErr = s.maxErr

theorem erase_dropped (s : Spline) {m : Nat} (hm : m + 2 ≤ s.count) : Dropped s (s.erase m) m := by
  unfold erase
  rw [if_neg (by omega)]
  by_cases h0 : m = 0
  · subst h0; rw [if_pos rfl]
    exact ⟨rfl, fun _ => rfl, rfl, rfl, rfl, rfl, rfl, rfl, rfl, rfl, rfl⟩
  · rw [if_neg h0]
    refine ⟨rfl, ?_, rfl, rfl, rfl, rfl, rfl, rfl, rfl, ?_, rfl⟩
    · intro i; exact pt_shift s i m
    · simp only; rw [if_neg (by omega)]

theorem Many.dropped {s t : Spline} {h : Nat → Nat} {a b m : Nat} (M : Many s h a b) (hm : m + 2 ≤ s.count)
    (D : Dropped s t m) : Many t h a b where
  temp := D.temp.trans M.temp
  two := by rw [D.count]; omega
  pts i hi := by rw [D.count] at hi; rw [D.pt]; exact M.pts _ (by omega)
  asc i j hij hj := by rw [D.count] at hj; rw [D.pt, D.pt]; exact M.asc _ _ (by omega) (by omega)
  lo := by
    rw [D.pt]
    rcases Nat.eq_zero_or_pos (0 + m) with h0 | h0
    · rw [h0]; exact M.lo
    · have := M.asc 0 (0 + m) h0 (by omega)
      have := M.lo
      omega
  last := by rw [D.count, D.pt, show s.count - m - 1 + m = s.count - 1 by omega]; exact M.last
  lastKey := D.lastKey.trans M.lastKey
  lastLoc := D.lastLoc.trans M.lastLoc
  seg i hi := by
    rw [D.count] at hi
    rw [D.pt, D.pt, D.maxErr, show i + 1 + m = i + m + 1 by omega]
    exact M.seg _ (by omega)
  up := by rw [D.count, D.pt, D.maxErr, D.upper, show s.count - m - 2 + m = s.count - 2 by omega]; exact M.up
  low := by rw [D.count, D.pt, D.maxErr, D.lower, show s.count - m - 2 + m = s.count - 2 by omega]; exact M.low

theorem Inv.dropped {s t : Spline} {h : Nat → Nat} {a b m : Nat} (I : Inv s h a b) (hm : m + 2 ≤ s.count)
    (D : Dropped s t m) : Inv t h a b where
  le := I.le
  size4 := D.size ▸ I.size4
  cnt := by rw [D.count, D.size]; have := I.cnt; omega
  numAdd := D.numAdd.trans I.numAdd
  first hab := D.first.trans (I.first hab)
  zero hab := by have := (I.zero hab).1; omega
  one hab := by have := (I.one hab).1; omega
  many hab := (I.many hab).dropped hm D

theorem cleanCount_le (s : Spline) (mp : Nat) : ∀ f acc, s.cleanCount mp f acc ≤ acc + f := by
  intro f
  induction f with
  | zero => intro acc; exact le_refl _
  | succ f ih =>
    intro acc
    unfold cleanCount
    split_ifs
    · have := ih (acc + 1); omega
    · omega

/-- `cleanSpline` drops some oldest points and always keeps at least two (or does nothing). -/
theorem clean_dropped (s : Spline) (mp : Nat) : s.clean mp = s ∨
    ∃ m, m + 2 ≤ s.count ∧ Dropped s (s.clean mp) m := by
  have hn := cleanCount_le s mp s.count 0
  unfold clean
  generalize s.cleanCount mp s.count 0 = n at hn
  simp only
  by_cases h1 : s.count - n < 2
  · rw [if_pos h1]
    by_cases h2 : n < 2 - (s.count - n)
    · rw [if_pos h2]; exact Or.inl rfl
    · rw [if_neg h2]
      by_cases h3 : 2 ≤ s.count
      · exact Or.inr ⟨_, by omega, erase_dropped s (by omega)⟩
      · left
        have : n - (2 - (s.count - n)) = 0 := by omega
        rw [this]
        unfold erase
        split_ifs <;> first | rfl | omega
  · rw [if_neg h1]
    exact Or.inr ⟨n, by omega, erase_dropped s (by omega)⟩

theorem Inv.clean {s : Spline} {h : Nat → Nat} {a b : Nat} (I : Inv s h a b) (mp : Nat) :
    Inv (s.clean mp) h a b := by
  rcases clean_dropped s mp with h | ⟨m, hm, D⟩
  · rw [h]; exact I
  · exact I.dropped hm D

/-! ### `splineAdd` -/

theorem pt_addTemp {t : Spline} {key page i : Nat} (hc : t.count < t.size) (hi : i < t.size) :
    (t.addTemp key page).pt i = if i = t.count then (key, page) else t.pt i := by
  unfold addTemp
  exact pt_setPt { t with lastLoc := page, lastKey := key } (key, page) hc hi

/-- Storing the new temporary point. `t` is the ring whose last permanent point is at `t.count - 1`. -/
theorem many_addTemp {t : Spline} {h : Nat → Nat} {a b : Nat} (h1 : 1 ≤ t.count) (hsz : t.count < t.size)
    (pts : ∀ i, i < t.count → (t.pt i).1 = h (t.pt i).2)
    (asc : ∀ i j, i < j → j < t.count → (t.pt i).2 < (t.pt j).2)
    (lo : a ≤ (t.pt 0).2) (hlast : (t.pt (t.count - 1)).2 < b)
    (seg : ∀ i, i + 1 < t.count → Seg h t.maxErr (t.pt i).2 (t.pt (i + 1)).2)
    (segN : Seg h t.maxErr (t.pt (t.count - 1)).2 b)
    (up : UpLim h t.maxErr (t.pt (t.count - 1)).2 (b + 1) t.upper)
    (low : LoLim h t.maxErr (t.pt (t.count - 1)).2 (b + 1) t.lower) :
    Many (t.addTemp (h b) b) h a (b + 1) := by
  have hcnt : (t.addTemp (h b) b).count = t.count + 1 := rfl
  have hpt : ∀ i, i ≤ t.count → (t.addTemp (h b) b).pt i = if i = t.count then (h b, b) else t.pt i :=
    fun i hi => pt_addTemp hsz (by omega)
  have hold : ∀ i, i < t.count → (t.addTemp (h b) b).pt i = t.pt i := by
    intro i hi; rw [hpt i (by omega), if_neg (by omega)]
  have hnew : (t.addTemp (h b) b).pt t.count = (h b, b) := by rw [hpt _ (le_refl _), if_pos rfl]
  have hbelow : ∀ i, i < t.count → (t.pt i).2 < b := by
    intro i hi
    rcases Nat.eq_or_lt_of_le (show i ≤ t.count - 1 by omega) with he | hl
    · rw [he]; exact hlast
    · have := asc i (t.count - 1) hl (by omega); omega
  refine ⟨rfl, by omega, ?_, ?_, ?_, ?_, rfl, ?_, ?_, ?_, ?_⟩
  · intro i hi
    rcases Nat.lt_or_ge i t.count with hl | hl
    · rw [hold i hl]; exact pts i hl
    · have : i = t.count := by omega
      subst this; rw [hnew]
  · intro i j hij hj
    rcases Nat.lt_or_ge j t.count with hl | hl
    · rw [hold i (by omega), hold j hl]; exact asc i j hij hl
    · have : j = t.count := by omega
      subst this; rw [hnew, hold i hij]; exact hbelow i hij
  · rw [hold 0 (by omega)]; exact lo
  · rw [hcnt, Nat.add_sub_cancel, hnew]
  · show b = b + 1 - 1
    omega
  · intro i hi
    rw [hcnt] at hi
    show Seg h t.maxErr _ _
    rcases Nat.lt_or_ge (i + 1) t.count with hl | hl
    · rw [hold i (by omega), hold _ hl]; exact seg i hl
    · have : i + 1 = t.count := by omega
      rw [this, hnew, hold i (by omega)]
      have : i = t.count - 1 := by omega
      rw [this]; exact segN
  · rw [hcnt, show t.count + 1 - 2 = t.count - 1 by omega, hold _ (by omega)]; exact up
  · rw [hcnt, show t.count + 1 - 2 = t.count - 1 by omega, hold _ (by omega)]; exact low

/-- The point is outside the corridor. -/
theorem many_outside {t : Spline} {h : Nat → Nat} {a b : Nat} (h4 : 4 ≤ t.size) (h1 : 1 ≤ t.count)
    (hsz : t.count < t.size)
    (pts : ∀ i, i < t.count → (t.pt i).1 = h (t.pt i).2)
    (asc : ∀ i j, i < j → j < t.count → (t.pt i).2 < (t.pt j).2)
    (lo : a ≤ (t.pt 0).2) (hlast : (t.pt (t.count - 1)).2 + 1 < b)
    (seg : ∀ i, i + 1 < t.count → Seg h t.maxErr (t.pt i).2 (t.pt (i + 1)).2)
    (segL : Seg h t.maxErr (t.pt (t.count - 1)).2 (b - 1))
    (hk : t.lastKey = h (b - 1)) (hl : t.lastLoc = b - 1) :
    Many ((t.addOutside (h b) b).addTemp (h b) b) h a (b + 1) ∧ (t.addOutside (h b) b).count < t.size ∧
      (t.addOutside (h b) b).size = t.size ∧ (t.addOutside (h b) b).first = t.first ∧
      (t.addOutside (h b) b).numAdd = t.numAdd := by
  obtain ⟨u, hu⟩ : ∃ u : Spline, u = { t.setPt t.count (t.lastKey, t.lastLoc) with
      count := t.count + 1, temp := false, lower := (h b, lowPage t.maxErr b), upper := (h b, b + t.maxErr) } := ⟨_, rfl⟩
  have ucnt : u.count = t.count + 1 := by rw [hu]
  have usz : u.size = t.size := by rw [hu]; rfl
  have upt : ∀ i, i < t.size → u.pt i = if i = t.count then (h (b - 1), b - 1) else t.pt i := by
    intro i hi
    rw [hu, ← hk, ← hl]
    exact pt_setPt t (t.lastKey, t.lastLoc) hsz hi
  have hold : ∀ i, i < t.count → u.pt i = t.pt i := by
    intro i hi; rw [upt i (by omega), if_neg (by omega)]
  have hnew : u.pt t.count = (h (b - 1), b - 1) := by rw [upt _ hsz, if_pos rfl]
  have ue : u.maxErr = t.maxErr := by rw [hu]; rfl
  have uup : u.upper = (h b, b + t.maxErr) := by rw [hu]
  have ulo : u.lower = (h b, lowPage t.maxErr b) := by rw [hu]
  have ufirst : u.first = t.first := by rw [hu]; rfl
  have unum : u.numAdd = t.numAdd := by rw [hu]; rfl
  have hout : t.addOutside (h b) b = if u.count ≥ u.size then u.erase 1 else u := by rw [hu]; rfl
  obtain ⟨m, D, hm, hc⟩ : ∃ m, Dropped u (t.addOutside (h b) b) m ∧ m + 2 ≤ u.count ∧ u.count - m < u.size := by
    rw [hout]
    by_cases hge : u.count ≥ u.size
    · rw [if_pos hge]
      exact ⟨1, erase_dropped u (by omega), by omega, by omega⟩
    · rw [if_neg hge]
      exact ⟨0, ⟨rfl, fun _ => rfl, rfl, rfl, rfl, rfl, rfl, rfl, rfl, rfl, rfl⟩, by omega, by omega⟩
  generalize hw : t.addOutside (h b) b = w at D
  have hP : (b - 1) + 1 = b := by omega
  have upts : ∀ i, i < u.count → (u.pt i).1 = h (u.pt i).2 := by
    intro i hi
    rcases Nat.lt_or_ge i t.count with hl | hl
    · rw [hold i hl]; exact pts i hl
    · have : i = t.count := by omega
      subst this; rw [hnew]
  have uasc : ∀ i j, i < j → j < u.count → (u.pt i).2 < (u.pt j).2 := by
    intro i j hij hj
    rcases Nat.lt_or_ge j t.count with hl | hl
    · rw [hold i (by omega), hold j hl]; exact asc i j hij hl
    · have : j = t.count := by omega
      subst this; rw [hnew, hold i hij]
      rcases Nat.eq_or_lt_of_le (show i ≤ t.count - 1 by omega) with he | hl
      · rw [he]; simp only; omega
      · have := asc i (t.count - 1) hl (by omega); simp only; omega
  have useg : ∀ i, i + 1 < u.count → Seg h t.maxErr (u.pt i).2 (u.pt (i + 1)).2 := by
    intro i hi
    rcases Nat.lt_or_ge (i + 1) t.count with hl | hl
    · rw [hold i (by omega), hold _ hl]; exact seg i hl
    · have : i + 1 = t.count := by omega
      rw [this, hnew, hold i (by omega)]
      have : i = t.count - 1 := by omega
      rw [this]; exact segL
  have wlast : (w.pt (w.count - 1)) = (h (b - 1), b - 1) := by
    rw [D.pt, D.count, show u.count - m - 1 + m = t.count by omega, hnew]
  have wcnt := D.count
  refine ⟨?_, by omega, D.size.trans usz, D.first.trans ufirst, D.numAdd.trans unum⟩
  apply many_addTemp
  · omega
  · rw [D.size]; omega
  · intro i hi; rw [D.pt]; exact upts _ (by omega)
  · intro i j hij hj; rw [D.pt, D.pt]; exact uasc _ _ (by omega) (by omega)
  · rw [D.pt]
    have hu0 : a ≤ (u.pt 0).2 := by rw [hold 0 (by omega)]; exact lo
    rcases Nat.eq_zero_or_pos (0 + m) with h0 | h0
    · rw [h0]; exact hu0
    · have := uasc 0 (0 + m) h0 (by omega); omega
  · rw [wlast]; simp only; omega
  · intro i hi
    rw [D.pt, D.pt, D.maxErr, ue, show i + 1 + m = i + m + 1 by omega]
    exact useg _ (by omega)
  · rw [wlast]
    have := seg_adjacent h w.maxErr (b - 1)
    rwa [hP] at this
  · rw [wlast, D.upper, D.maxErr, uup, ue]
    have := upLim_single h t.maxErr (b - 1)
    rwa [show b - 1 + 2 = b + 1 by omega, hP] at this
  · rw [wlast, D.lower, D.maxErr, ulo, ue]
    have := loLim_single h t.maxErr (b - 1)
    rwa [show b - 1 + 2 = b + 1 by omega, hP] at this

/-- The point is inside the corridor. -/
theorem many_inside {t : Spline} {h : Nat → Nat} {a b : Nat} (F : Feed h t.maxErr a (b + 1)) (h1 : 1 ≤ t.count)
    (hsz : t.count < t.size)
    (pts : ∀ i, i < t.count → (t.pt i).1 = h (t.pt i).2)
    (asc : ∀ i j, i < j → j < t.count → (t.pt i).2 < (t.pt j).2)
    (lo : a ≤ (t.pt 0).2) (haP : a ≤ (t.pt (t.count - 1)).2) (hlast : (t.pt (t.count - 1)).2 + 1 < b)
    (seg : ∀ i, i + 1 < t.count → Seg h t.maxErr (t.pt i).2 (t.pt (i + 1)).2)
    (up : UpLim h t.maxErr (t.pt (t.count - 1)).2 b t.upper)
    (low : LoLim h t.maxErr (t.pt (t.count - 1)).2 b t.lower)
    (hnl : isLeft (h b - (t.pt (t.count - 1)).1) ((b : Int) - (t.pt (t.count - 1)).2)
      (t.upper.1 - (t.pt (t.count - 1)).1) ((t.upper.2 : Int) - (t.pt (t.count - 1)).2) = false)
    (hnr : isRight (h b - (t.pt (t.count - 1)).1) ((b : Int) - (t.pt (t.count - 1)).2)
      (t.lower.1 - (t.pt (t.count - 1)).1) ((t.lower.2 : Int) - (t.pt (t.count - 1)).2) = false) :
    Many ((t.addInside (h b) b (t.pt (t.count - 1)) t.upper t.lower).addTemp (h b) b) h a (b + 1) := by
  obtain ⟨u, hu1, hu2, hu3, hu4⟩ := up
  obtain ⟨l, hl1, hl2, hl3, hl4⟩ := low
  have hPk : (t.pt (t.count - 1)).1 = h (t.pt (t.count - 1)).2 := pts _ (by omega)
  have hpair : t.pt (t.count - 1) = (h (t.pt (t.count - 1)).2, (t.pt (t.count - 1)).2) := by rw [← hPk]
  generalize hP : (t.pt (t.count - 1)).2 = P at *
  rw [hpair]
  rw [hPk, hu3] at hnl
  rw [hPk, hl3] at hnr
  have hb0 := F.mono P b haP (by omega) (by omega)
  have hu0 := F.mono P u haP hu1 (by omega)
  have hl0 := F.mono P l haP hl1 (by omega)
  have m1 : ∀ y, y ≤ b + 1 + t.maxErr → y * (h b - h P) < 2 ^ 63 :=
    fun y hy => F.mul_lt haP (by omega) (by omega) hy
  have m2 : ∀ y, y ≤ b + 1 + t.maxErr → y * (h u - h P) < 2 ^ 63 :=
    fun y hy => F.mul_lt haP (by omega) (by omega) hy
  have m3 : ∀ y, y ≤ b + 1 + t.maxErr → y * (h l - h P) < 2 ^ 63 :=
    fun y hy => F.mul_lt haP (by omega) (by omega) hy
  have hlle := lowPage_le t.maxErr l
  have hlb := lowPage_mono (e := t.maxErr) (show l ≤ b by omega)
  have hbb := lowPage_le t.maxErr b
  -- not left of the upper limit
  simp only at hnl hnr
  rw [isLeft_nat (y1 := b - P) (y2 := u + t.maxErr - P) (by omega) (by omega) (m2 _ (by omega)) (m1 _ (by omega)),
    decide_eq_false_iff_not] at hnl
  -- the lower limit is not below the last point
  have hPl : P ≤ lowPage t.maxErr l := by
    by_contra hcon
    rw [isRight_neg (y1 := b - P) (n := P - lowPage t.maxErr l) (by omega) (by omega) (by omega) (by omega)
      (m3 _ (by omega)) (m1 _ (by omega))] at hnr
    cases hnr
  rw [isRight_nat (y1 := b - P) (y2 := lowPage t.maxErr l - P) (by omega) (by omega) (m3 _ (by omega))
    (m1 _ (by omega)), decide_eq_false_iff_not] at hnr
  have hlo := hl4 hPl
  -- the new segment
  have hsegN : Seg h t.maxErr P b :=
    seg_of_inside (fun p q hp hpq hq => F.mono p q (by omega) hpq hq) hu1 hu2 hl1 hl2 hu4 hlo (by omega) (by omega)
  -- the tightened limits
  obtain ⟨w, hw⟩ : ∃ w, w = t.addInside (h b) b (h P, P) t.upper t.lower := ⟨_, rfl⟩
  have wfields : w.count = t.count ∧ (∀ i, w.pt i = t.pt i) ∧ w.size = t.size ∧ w.maxErr = t.maxErr ∧
      UpLim h t.maxErr P (b + 1) w.upper ∧ LoLim h t.maxErr P (b + 1) w.lower := by
    have hw' := hw
    unfold addInside at hw'
    rw [hu3, hl3] at hw'
    simp only at hw'
    rw [isLeft_nat (y1 := u + t.maxErr - P) (y2 := b + t.maxErr - P) (by omega) (by omega) (m1 _ (by omega))
      (m2 _ (by omega))] at hw'
    have hu32 : ∀ z : Int, z = ((lowPage t.maxErr b - P : Nat) : Int) → u32 z = lowPage t.maxErr b - P := by
      intro z hz; subst hz; unfold u32; have := F.pages; omega
    have hup' : UpLim h t.maxErr P (b + 1)
        (if (u + t.maxErr - P) * (h b - h P) > (b + t.maxErr - P) * (h u - h P) then (h b, b + t.maxErr) else t.upper) := by
      by_cases hc : (u + t.maxErr - P) * (h b - h P) > (b + t.maxErr - P) * (h u - h P)
      · rw [if_pos hc]
        refine ⟨b, by omega, by omega, rfl, ?_⟩
        intro p hp1 hp2
        rcases Nat.eq_or_lt_of_le (show p ≤ b by omega) with rfl | hpb
        · exact le_refl _
        · exact cross_trans (by omega) (le_of_lt hc) (hu4 p hp1 hpb)
      · rw [if_neg hc]
        refine ⟨u, hu1, by omega, hu3, ?_⟩
        intro p hp1 hp2
        rcases Nat.eq_or_lt_of_le (show p ≤ b by omega) with rfl | hpb
        · omega
        · exact hu4 p hp1 hpb
    have hlo' : LoLim h t.maxErr P (b + 1)
        (if (lowPage t.maxErr l - P) * (h b - h P) < (lowPage t.maxErr b - P) * (h l - h P)
          then (h b, lowPage t.maxErr b) else t.lower) := by
      by_cases hc : (lowPage t.maxErr l - P) * (h b - h P) < (lowPage t.maxErr b - P) * (h l - h P)
      · rw [if_pos hc]
        refine ⟨b, by omega, by omega, rfl, ?_⟩
        intro _ p hp1 hp2
        rcases Nat.eq_or_lt_of_le (show p ≤ b by omega) with rfl | hpb
        · exact le_refl _
        · exact cross_trans (by omega) (hlo p hp1 hpb) (le_of_lt hc)
      · rw [if_neg hc]
        refine ⟨l, hl1, by omega, hl3, ?_⟩
        intro _ p hp1 hp2
        rcases Nat.eq_or_lt_of_le (show p ≤ b by omega) with rfl | hpb
        · omega
        · exact hlo p hp1 hpb
    by_cases hcu : (u + t.maxErr - P) * (h b - h P) > (b + t.maxErr - P) * (h u - h P)
    · rw [if_pos hcu] at hup'
      rw [decide_eq_true hcu, if_pos rfl] at hw'
      simp only at hw'
      rw [hu32 _ (by omega), isRight_nat (y1 := lowPage t.maxErr l - P) (y2 := lowPage t.maxErr b - P) (by omega)
        (by omega) (m1 _ (by omega)) (m3 _ (by omega))] at hw'
      by_cases hcl : (lowPage t.maxErr l - P) * (h b - h P) < (lowPage t.maxErr b - P) * (h l - h P)
      · rw [if_pos hcl] at hlo'
        rw [decide_eq_true hcl, if_pos rfl] at hw'
        rw [hw']
        exact ⟨rfl, fun _ => rfl, rfl, rfl, hup', hlo'⟩
      · rw [if_neg hcl, hl3] at hlo'
        rw [decide_eq_false hcl, if_neg (by decide)] at hw'
        rw [hw']
        exact ⟨rfl, fun _ => rfl, rfl, rfl, hup', hlo'⟩
    · rw [if_neg hcu] at hup'
      simp only [decide_eq_false hcu, Bool.false_eq_true, if_false] at hw'
      rw [hu32 _ (by omega), isRight_nat (y1 := lowPage t.maxErr l - P) (y2 := lowPage t.maxErr b - P) (by omega)
        (by omega) (m1 _ (by omega)) (m3 _ (by omega))] at hw'
      by_cases hcl : (lowPage t.maxErr l - P) * (h b - h P) < (lowPage t.maxErr b - P) * (h l - h P)
      · rw [if_pos hcl] at hlo'
        rw [decide_eq_true hcl, if_pos rfl] at hw'
        rw [hw']
        exact ⟨rfl, fun _ => rfl, rfl, rfl, hup', hlo'⟩
      · rw [if_neg hcl] at hlo'
        rw [decide_eq_false hcl, if_neg (by decide)] at hw'
        rw [hw']
        exact ⟨rfl, fun _ => rfl, rfl, rfl, hup', hlo'⟩
  rw [← hw]
  obtain ⟨w1, w2, w3, w4, w5, w6⟩ := wfields
  have wl : (w.pt (w.count - 1)).2 = P := by rw [w1, w2]; exact hP
  apply many_addTemp
  · omega
  · omega
  · intro i hi; rw [w2]; exact pts i (by omega)
  · intro i j hij hj; rw [w2, w2]; exact asc i j hij (by omega)
  · rw [w2]; exact lo
  · omega
  · intro i hi; rw [w2, w2, w4]; exact seg i (by omega)
  · rw [wl, w4]; exact hsegN
  · rw [wl, w4]; exact w5
  · rw [wl, w4]; exact w6

/-- `addTemp` and the corridor update do not touch these fields. -/
theorem addInside_fields (t : Spline) (k p : Nat) (x u l : Nat × Nat) :
    (t.addInside k p x u l).size = t.size ∧ (t.addInside k p x u l).first = t.first ∧
    (t.addInside k p x u l).numAdd = t.numAdd ∧ (t.addInside k p x u l).count = t.count ∧
    (t.addInside k p x u l).maxErr = t.maxErr := by
  unfold addInside
  simp only
  split_ifs <;> exact ⟨rfl, rfl, rfl, rfl, rfl⟩

theorem addTemp_fields (t : Spline) (k p : Nat) :
    (t.addTemp k p).size = t.size ∧ (t.addTemp k p).first = t.first ∧ (t.addTemp k p).numAdd = t.numAdd ∧
    (t.addTemp k p).count = t.count + 1 ∧ (t.addTemp k p).maxErr = t.maxErr := ⟨rfl, rfl, rfl, rfl, rfl⟩

/-- Third and later points. -/
theorem many_add {s : Spline} {h : Nat → Nat} {a b : Nat} (M : Many s h a b) (h4 : 4 ≤ s.size)
    (hsz : s.count ≤ s.size) (F : Feed h s.maxErr a (b + 1)) :
    Many (s.addMain (h b) b) h a (b + 1) ∧ (s.addMain (h b) b).count ≤ s.size ∧
      (s.addMain (h b) b).size = s.size ∧ (s.addMain (h b) b).first = s.first ∧
      (s.addMain (h b) b).numAdd = s.numAdd := by
  obtain ⟨t, ht⟩ : ∃ t : Spline, t = { s with count := s.count - 1 } := ⟨_, rfl⟩
  have t1 : t.count = s.count - 1 := by rw [ht]
  have t2 : ∀ i, t.pt i = s.pt i := by intro i; rw [ht]; rfl
  have t3 : t.size = s.size := by rw [ht]
  have t4 : t.maxErr = s.maxErr := by rw [ht]
  have t5 : t.upper = s.upper := by rw [ht]
  have t6 : t.lower = s.lower := by rw [ht]
  have t7 : t.first = s.first := by rw [ht]
  have t8 : t.numAdd = s.numAdd := by rw [ht]
  have t9 : t.lastKey = s.lastKey := by rw [ht]
  have t10 : t.lastLoc = s.lastLoc := by rw [ht]
  have two := M.two
  have hadd : s.addMain (h b) b =
      (if isLeft (h b - (t.pt (t.count - 1)).1) ((b : Int) - (t.pt (t.count - 1)).2)
          (t.upper.1 - (t.pt (t.count - 1)).1) ((t.upper.2 : Int) - (t.pt (t.count - 1)).2) ||
        isRight (h b - (t.pt (t.count - 1)).1) ((b : Int) - (t.pt (t.count - 1)).2)
          (t.lower.1 - (t.pt (t.count - 1)).1) ((t.lower.2 : Int) - (t.pt (t.count - 1)).2) then
        t.addOutside (h b) b else t.addInside (h b) b (t.pt (t.count - 1)) t.upper t.lower).addTemp (h b) b := by
    have e1 : (if s.temp then { s with count := s.count - 1 } else s) = t := by rw [if_pos M.temp, ht]
    unfold addMain
    simp only [e1]
    rw [if_neg (show ¬ (t.count ≥ t.size) by omega)]
  have last : (s.pt (s.count - 1)).2 + 1 = b := M.last
  have c1 : s.count - 1 - 1 = s.count - 2 := by omega
  have hlt := M.asc (s.count - 2) (s.count - 1) (by omega) (by omega)
  have tpts : ∀ i, i < t.count → (t.pt i).1 = h (t.pt i).2 := by
    intro i hi; rw [t2]; exact M.pts i (by omega)
  have tasc : ∀ i j, i < j → j < t.count → (t.pt i).2 < (t.pt j).2 := by
    intro i j hij hj; rw [t2, t2]; exact M.asc i j hij (by omega)
  have tlo : a ≤ (t.pt 0).2 := by rw [t2]; exact M.lo
  have tlast : (t.pt (t.count - 1)).2 + 1 < b := by rw [t2, t1, c1]; omega
  have tseg : ∀ i, i + 1 < t.count → Seg h t.maxErr (t.pt i).2 (t.pt (i + 1)).2 := by
    intro i hi; rw [t2, t2, t4]; exact M.seg i (by omega)
  have taP : a ≤ (t.pt (t.count - 1)).2 := by
    rcases Nat.eq_zero_or_pos (t.count - 1) with h0 | h0
    · rw [h0]; exact tlo
    · have := tasc 0 (t.count - 1) h0 (by omega); omega
  rw [hadd]
  by_cases hl : isLeft (h b - (t.pt (t.count - 1)).1) ((b : Int) - (t.pt (t.count - 1)).2)
          (t.upper.1 - (t.pt (t.count - 1)).1) ((t.upper.2 : Int) - (t.pt (t.count - 1)).2) ||
        isRight (h b - (t.pt (t.count - 1)).1) ((b : Int) - (t.pt (t.count - 1)).2)
          (t.lower.1 - (t.pt (t.count - 1)).1) ((t.lower.2 : Int) - (t.pt (t.count - 1)).2)
  · rw [if_pos hl]
    have := many_outside (t := t) (h := h) (a := a) (b := b) (by omega) (by omega) (by omega) tpts tasc tlo tlast tseg
      (by
        have := M.seg (s.count - 2) (by omega)
        rw [show s.count - 2 + 1 = s.count - 1 by omega] at this
        rw [t2, t1, c1, t4, show b - 1 = (s.pt (s.count - 1)).2 by omega]
        exact this)
      (t9.trans M.lastKey) (t10.trans M.lastLoc)
    obtain ⟨q1, q2, q3, q4, q5⟩ := this
    refine ⟨q1, ?_, q3.trans t3, q4.trans t7, q5.trans t8⟩
    show (t.addOutside (h b) b).count + 1 ≤ s.size
    omega
  · rw [if_neg hl]
    rw [Bool.not_eq_true, Bool.or_eq_false_iff] at hl
    have := many_inside (t := t) (h := h) (a := a) (b := b) (by rw [t4]; exact F) (by omega) (by omega) tpts tasc tlo
      taP tlast tseg (by rw [t2, t1, c1, t4, t5]; exact M.up) (by rw [t2, t1, c1, t4, t6]; exact M.low) hl.1 hl.2
    obtain ⟨f1, f2, f3, f4, f5⟩ := addInside_fields t (h b) b (t.pt (t.count - 1)) t.upper t.lower
    refine ⟨this, ?_, f1.trans t3, f2.trans t7, f3.trans t8⟩
    show (t.addInside (h b) b (t.pt (t.count - 1)) t.upper t.lower).count + 1 ≤ s.size
    omega

/-- Second point: stored as a temporary point, the corridor starts here. -/
theorem second_add {s : Spline} {h : Nat → Nat} {a : Nat} (hc : s.count = 1) (h4 : 4 ≤ s.size) (ht : s.temp = false)
    (hp : s.pt 0 = (h a, a)) (hup : s.upper = (h (a + 1), a + 1 + s.maxErr))
    (hlow : s.lower = (h (a + 1), lowPage s.maxErr (a + 1))) (hstart : a = 0 ∨ s.maxErr ≤ 1)
    (F : Feed h s.maxErr a (a + 2)) :
    Many (s.addMain (h (a + 1)) (a + 1)) h a (a + 2) ∧ (s.addMain (h (a + 1)) (a + 1)).count ≤ s.size ∧
      (s.addMain (h (a + 1)) (a + 1)).size = s.size ∧ (s.addMain (h (a + 1)) (a + 1)).first = s.first ∧
      (s.addMain (h (a + 1)) (a + 1)).numAdd = s.numAdd := by
  have hlp : a ≤ lowPage s.maxErr (a + 1) := by unfold lowPage; split_ifs <;> omega
  have hll := lowPage_le s.maxErr (a + 1)
  have hm := F.mono a (a + 1) (le_refl _) (by omega) (by omega)
  have m1 : ∀ y, y ≤ a + 2 + s.maxErr → y * (h (a + 1) - h a) < 2 ^ 63 :=
    fun y hy => F.mul_lt (le_refl _) (by omega) (by omega) hy
  have hmain : s.addMain (h (a + 1)) (a + 1) = s.addTemp (h (a + 1)) (a + 1) := by
    unfold addMain
    simp only [ht, Bool.false_eq_true, if_false, hc, Nat.sub_self, hp, hup, hlow]
    rw [if_neg (show ¬ (1 ≥ s.size) by omega)]
    rw [isLeft_nat (y1 := 1) (y2 := 1 + s.maxErr) (by omega) (by omega) (m1 _ (by omega)) (m1 _ (by omega)),
      isRight_nat (y1 := 1) (y2 := lowPage s.maxErr (a + 1) - a) (by omega) (by omega) (m1 _ (by omega)) (m1 _ (by omega))]
    have n1 : ¬ (1 * (h (a + 1) - h a) > (1 + s.maxErr) * (h (a + 1) - h a)) := by
      rw [Nat.add_mul]; omega
    have n2 : ¬ (1 * (h (a + 1) - h a) < (lowPage s.maxErr (a + 1) - a) * (h (a + 1) - h a)) := by
      have : (lowPage s.maxErr (a + 1) - a) * (h (a + 1) - h a) ≤ 1 * (h (a + 1) - h a) :=
        Nat.mul_le_mul_right _ (by omega)
      omega
    rw [decide_eq_false n1, decide_eq_false n2]
    simp only [Bool.or_self, Bool.false_eq_true, if_false]
    congr 1
    have hu32 : u32 ((lowPage s.maxErr (a + 1) : Int) - a) = lowPage s.maxErr (a + 1) - a := by
      unfold u32; have := F.pages; omega
    unfold addInside
    simp only
    rw [isLeft_nat (y1 := 1 + s.maxErr) (y2 := 1 + s.maxErr) (by omega) (by omega) (m1 _ (by omega)) (m1 _ (by omega)),
      decide_eq_false (Nat.lt_irrefl _)]
    simp only [Bool.false_eq_true, if_false]
    rw [hu32, isRight_nat (y1 := lowPage s.maxErr (a + 1) - a) (y2 := lowPage s.maxErr (a + 1) - a) (by omega) (by omega)
      (m1 _ (by omega)) (m1 _ (by omega)), decide_eq_false (Nat.lt_irrefl _)]
    simp only [Bool.false_eq_true, if_false]
  rw [hmain]
  refine ⟨?_, ?_, rfl, rfl, rfl⟩
  · have hpl : s.pt (s.count - 1) = (h a, a) := by rw [hc]; exact hp
    apply many_addTemp
    · omega
    · omega
    · intro i hi
      have : i = 0 := by omega
      subst this; rw [hp]
    · intro i j hij hj; omega
    · rw [hp]
    · rw [hpl]; simp only; omega
    · intro i hi; omega
    · rw [hpl]; exact seg_adjacent h _ a
    · rw [hpl, hup]; exact upLim_single h _ a
    · rw [hpl, hlow]; exact loLim_single h _ a
  · show s.count + 1 ≤ s.size
    omega

/-- `splineAdd` of the next page keeps the invariant. -/
theorem Inv.add {s : Spline} {h : Nat → Nat} {a b : Nat} (I : Inv s h a b) (hstart : a = 0 ∨ s.maxErr ≤ 1)
    (F : Feed h s.maxErr a (b + 1)) : Inv (s.add (h b) b) h a (b + 1) := by
  have hle := I.le
  have hnum := I.numAdd
  have h4 := I.size4
  unfold Spline.add
  simp only
  rcases Nat.eq_or_lt_of_le hle with heq | hlt
  · -- first point
    subst heq
    obtain ⟨c0, t0⟩ := I.zero rfl
    rw [if_pos (by omega)]
    have hpt : (({ s with numAdd := s.numAdd + 1 } : Spline).setPt 0 (h a, a)).pt 0 = (h a, a) := by
      rw [pt_setPt _ _ (by simp only; omega) (by simp only; omega), if_pos rfl]
    refine ⟨by omega, h4, ?_, ?_, ?_, ?_, ?_, ?_⟩
    · show s.count + 1 ≤ s.size
      omega
    · show s.numAdd + 1 = a + 1 - a
      omega
    · intro _; rfl
    · intro h; omega
    · intro _
      refine ⟨?_, hpt, t0, rfl⟩
      show s.count + 1 = 1
      omega
    · intro h; omega
  · rw [if_neg (by omega)]
    rcases Nat.eq_or_lt_of_le (show a + 1 ≤ b by omega) with heq | hlt2
    · -- second point
      subst heq
      obtain ⟨c1, p1, t1, k1⟩ := I.one rfl
      rw [if_pos (show s.numAdd + 1 = 2 by omega)]
      simp only
      rw [if_neg (show ¬ (h (a + 1) ≤ h (a + 1) ∧ s.numAdd + 1 ≠ 2) by omega)]
      have := second_add (s := { s with
          numAdd := s.numAdd + 1
          lower := (h (a + 1), lowPage s.maxErr (a + 1))
          upper := (h (a + 1), a + 1 + s.maxErr)
          lastKey := h (a + 1)
          lastLoc := a + 1 }) (h := h) (a := a) c1 h4 t1 p1 rfl rfl hstart F
      obtain ⟨q1, q2, q3, q4, q5⟩ := this
      refine ⟨by omega, ?_, ?_, ?_, ?_, ?_, ?_, ?_⟩
      · rw [q3]; exact h4
      · rw [q3]; exact q2
      · rw [q5]; simp only; omega
      · intro _; rw [q4]; exact I.first (by omega)
      · intro h; omega
      · intro h; omega
      · intro _; exact q1
    · have M := I.many (by omega)
      rw [if_neg (show ¬ (s.numAdd + 1 = 2) by omega)]
      have hk : s.lastKey < h b := by
        rw [M.lastKey]; exact F.mono _ _ (by omega) (by omega) (by omega)
      simp only
      rw [if_neg (show ¬ (h b ≤ s.lastKey ∧ s.numAdd + 1 ≠ 2) by omega)]
      have M' : Many { s with numAdd := s.numAdd + 1 } h a b :=
        ⟨M.temp, M.two, M.pts, M.asc, M.lo, M.last, M.lastKey, M.lastLoc, M.seg, M.up, M.low⟩
      obtain ⟨q1, q2, q3, q4, q5⟩ := many_add M' h4 I.cnt F
      refine ⟨by omega, ?_, ?_, ?_, ?_, ?_, ?_, ?_⟩
      · rw [q3]; exact h4
      · rw [q3]; exact q2
      · rw [q5]; simp only; omega
      · intro _; rw [q4]; exact I.first (by omega)
      · intro h; omega
      · intro h; omega
      · intro _; exact q1

theorem Inv.init (size e : Nat) (mem : Nat → Nat × Nat) (h : Nat → Nat) (a : Nat) (h4 : 4 ≤ size) :
    Inv (Spline.init size e mem) h a a :=
  ⟨le_refl _, h4, Nat.zero_le _, (Nat.sub_self a).symm, fun h => absurd h (Nat.lt_irrefl _), fun _ => ⟨rfl, rfl⟩,
    fun h => absurd h (by omega), fun h => absurd h (by omega)⟩

theorem erase_maxErr (s : Spline) (n : Nat) : (s.erase n).maxErr = s.maxErr := by
  unfold erase; split_ifs <;> rfl

theorem clean_maxErr (s : Spline) (n : Nat) : (s.clean n).maxErr = s.maxErr := by
  unfold clean; simp only; split_ifs <;> first | rfl | exact erase_maxErr _ _

theorem addMain_maxErr (s : Spline) (k p : Nat) : (s.addMain k p).maxErr = s.maxErr := by
  unfold addMain
  simp only
  rw [(addTemp_fields _ _ _).2.2.2.2]
  split_ifs <;> first
    | rw [(addInside_fields _ _ _ _ _ _).2.2.2.2]
    | (unfold addOutside; simp only; split_ifs)
  all_goals (try rw [erase_maxErr]); (try rfl)
  all_goals (show (erase _ _).maxErr = _; rw [erase_maxErr])

theorem add_maxErr (s : Spline) (k p : Nat) : (s.add k p).maxErr = s.maxErr := by
  unfold Spline.add
  simp only
  split_ifs <;> first | rfl | exact addMain_maxErr _ _ _

end Spline
end EDB
