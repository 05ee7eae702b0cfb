import Verif.Proofs.Table
import Verif.Proofs.Always
import Verif.Spec.Cost

/-! Helper lemmas for C59: how many pages lookups, scans and inserts read. -/

namespace EDB

open Spec (Log Range Op Out)

namespace Spline

/-- The predicted range is narrow unless the key is below the oldest spline point. -/
theorem find_width {s : Spline} {cmp : Nat → Nat → Int} {key : Nat} {r : Found} (h : s.find cmp key = .ok r)
    (h0 : ¬ (cmp key (s.pt 0).1 < 0 ∨ s.count ≤ 1)) : r.high ≤ r.low + 2 * s.maxErr := by
  unfold find at h
  rw [if_neg h0] at h
  split_ifs at h with h1
  · cases h; simp
  · obtain ⟨i, -, hi⟩ := Res.bind_eq_ok h
    unfold interp at hi
    simp only at hi
    split_ifs at hi
    all_goals (cases hi; simp only; omega)

/-- One more point, while the ring has room. -/
theorem addMain_pts {s : Spline} {key page n : Nat} (hn : (if s.temp then s.count - 1 else s.count) = n) (h1 : 1 ≤ n)
    (h2 : n + 1 < s.size) :
    (s.addMain key page).size = s.size ∧ (∀ i, i < n → (s.addMain key page).pt i = s.pt i) ∧
      ((s.addMain key page).count = n + 1 ∨
        ((s.addMain key page).count = n + 2 ∧ (s.addMain key page).pt n = (s.lastKey, s.lastLoc))) := by
  obtain ⟨t, ht⟩ : ∃ t : Spline, t = if s.temp then { s with count := s.count - 1 } else s := ⟨_, rfl⟩
  have tc : t.count = n := by rw [ht, ← hn]; split_ifs <;> rfl
  have tz : t.size = s.size := by rw [ht]; split_ifs <;> rfl
  have tp : ∀ i, t.pt i = s.pt i := by intro i; rw [ht]; split_ifs <;> rfl
  have tk : t.lastKey = s.lastKey := by rw [ht]; split_ifs <;> rfl
  have tl : t.lastLoc = s.lastLoc := by rw [ht]; split_ifs <;> rfl
  have hu : ∃ u : Spline, s.addMain key page = u.addTemp key page ∧ u.size = s.size ∧ (∀ i, i < n → u.pt i = s.pt i) ∧
      (u.count = n ∨ (u.count = n + 1 ∧ u.pt n = (s.lastKey, s.lastLoc))) := by
    refine ⟨_, rfl, ?_⟩
    simp only [← ht]
    rw [if_neg (show ¬ (t.count ≥ t.size) by omega)]
    split_ifs
    · unfold addOutside
      simp only
      rw [if_neg (show ¬ ((t.setPt t.count (t.lastKey, t.lastLoc)).count + 1 ≥ (t.setPt t.count (t.lastKey, t.lastLoc)).size) by
        simp only [setPt]; omega)]
      refine ⟨tz, ?_, Or.inr ⟨by simp only [setPt]; omega, ?_⟩⟩
      · intro i hi
        show (t.setPt t.count (t.lastKey, t.lastLoc)).pt i = s.pt i
        rw [pt_setPt _ _ (by omega) (by omega), if_neg (by omega), tp]
      · show (t.setPt t.count (t.lastKey, t.lastLoc)).pt n = _
        rw [pt_setPt _ _ (by omega) (by omega), if_pos tc.symm, tk, tl]
    · obtain ⟨f1, f2, f3, f4, f5⟩ := addInside_fields t key page (t.pt (t.count - 1)) t.upper t.lower
      refine ⟨by omega, ?_, Or.inl (by omega)⟩
      intro i hi
      rw [← tp i]
      unfold addInside
      simp only
      split_ifs <;> rfl
  obtain ⟨u, hu0, hu1, hu2, hu3⟩ := hu
  rw [hu0]
  obtain ⟨g1, g2, g3, g4, g5⟩ := addTemp_fields u key page
  refine ⟨by omega, ?_, ?_⟩
  · intro i hi
    rw [pt_addTemp (by omega) (by omega), if_neg (by omega)]
    exact hu2 i hi
  · rcases hu3 with h | ⟨h, h'⟩
    · left; omega
    · right
      refine ⟨by omega, ?_⟩
      rw [pt_addTemp (by omega) (by omega), if_neg (by omega)]
      exact h'

/-- What `cleanSpline` counts. -/
theorem cleanCount_spec (s : Spline) (mp : Nat) : ∀ f acc, acc ≤ s.cleanCount mp f acc ∧
    (∀ i, acc ≤ i → i < s.cleanCount mp f acc → (s.pt (i + 1)).2 < mp) ∧
    (s.cleanCount mp f acc < acc + f → mp ≤ (s.pt (s.cleanCount mp f acc + 1)).2) := by
  intro f
  induction f with
  | zero => intro acc; exact ⟨le_refl _, fun i h1 h2 => absurd h2 (by unfold cleanCount; omega), fun h => by unfold cleanCount at h; omega⟩
  | succ f ih =>
    intro acc
    unfold cleanCount
    split_ifs with h
    · obtain ⟨i1, i2, i3⟩ := ih (acc + 1)
      refine ⟨by omega, ?_, fun h' => i3 (by omega)⟩
      intro i h1 h2
      rcases Nat.eq_or_lt_of_le h1 with rfl | h1
      · exact h
      · exact i2 i h1 h2
    · exact ⟨le_refl _, fun i h1 h2 => absurd h2 (by omega), fun _ => by omega⟩

/-- After `cleanSpline` the oldest point is not above the first retained page, the second one is (unless only two are
left). -/
theorem clean_head {s : Spline} {mp : Nat} (h0 : (s.pt 0).2 ≤ mp) (h1 : 1 ≤ s.count) :
    1 ≤ (s.clean mp).count ∧ (s.clean mp).count ≤ s.count ∧ (s.clean mp).size = s.size ∧ ((s.clean mp).pt 0).2 ≤ mp ∧
      (3 ≤ (s.clean mp).count → mp ≤ ((s.clean mp).pt 1).2) := by
  have hn := cleanCount_le s mp s.count 0
  obtain ⟨-, q1, q2⟩ := cleanCount_spec s mp s.count 0
  unfold clean
  generalize s.cleanCount mp s.count 0 = n at hn q1 q2
  have hpt : ∀ m, m ≤ n → (s.pt m).2 ≤ mp := by
    intro m hm
    rcases Nat.eq_zero_or_pos m with rfl | h
    · exact h0
    · have := q1 (m - 1) (Nat.zero_le _) (by omega)
      rw [show m - 1 + 1 = m by omega] at this
      omega
  simp only
  by_cases c1 : s.count - n < 2
  · rw [if_pos c1]
    by_cases c2 : n < 2 - (s.count - n)
    · rw [if_pos c2]
      exact ⟨h1, le_refl _, rfl, h0, fun h => by omega⟩
    · rw [if_neg c2]
      by_cases c3 : 2 ≤ s.count
      · have D := erase_dropped s (m := n - (2 - (s.count - n))) (by omega)
        have e := D.count
        refine ⟨by omega, by omega, D.size, ?_, fun h => by omega⟩
        rw [D.pt, Nat.zero_add]; exact hpt _ (by omega)
      · have : n - (2 - (s.count - n)) = 0 := by omega
        rw [this]
        have e : s.erase 0 = s := by unfold erase; split_ifs <;> first | rfl | omega
        rw [e]
        exact ⟨h1, le_refl _, rfl, h0, fun h => by omega⟩
  · rw [if_neg c1]
    have D := erase_dropped s (m := n) (by omega)
    have e := D.count
    refine ⟨by omega, by omega, D.size, ?_, ?_⟩
    · rw [D.pt, Nat.zero_add]; exact hpt _ (le_refl _)
    · intro _
      rw [D.pt, Nat.add_comm]
      exact q2 (by omega)

/-- Points have different pages, so a spline of few pages has few points. -/
theorem Many.count_le {s : Spline} {h : Nat → Nat} {a b : Nat} (M : Many s h a b) {i : Nat} (hi : i < s.count) :
    (s.pt i).2 + (s.count - i) ≤ b := by
  have two := M.two
  have last := M.last
  have key : ∀ k, i + k < s.count → (s.pt i).2 + k ≤ (s.pt (i + k)).2 := by
    intro k
    induction k with
    | zero => intro _; simp
    | succ k ih =>
      intro hk
      have := ih (by omega)
      have := M.asc (i + k) (i + (k + 1)) (by omega) hk
      omega
  have := key (s.count - 1 - i) (by omega)
  rw [show i + (s.count - 1 - i) = s.count - 1 by omega] at this
  omega

end Spline

/-! ### The oldest spline point stays below the retained pages -/

/-- The spline knows the position of every retained page within its error bound: its oldest point lies at or before the
first retained page. -/
structure Head (c : Cfg) (d : Data) : Prop where
  size : d.spl.size = c.splSize
  fst : 1 ≤ d.spl.count → (d.spl.pt 0).2 ≤ d.min
  snd : c.noClean = false → 3 ≤ d.spl.count → d.min ≤ (d.spl.pt 1).2

/-- The ring of spline points never fills up: as many points as pages are ever written, or as pages are retained. -/
def Spacious (c : Cfg) (P : Nat) : Prop := P ≤ c.splSize ∨ (c.noClean = false ∧ c.N + 2 ≤ c.splSize)

section
variable {c : Cfg} {lo K a : Nat} {L : Log} {d : Data}

theorem Head.congr {d' : Data} (H : Head c d) (E : SameButCache d d') : Head c d' :=
  ⟨by rw [E.spl]; exact H.size, by rw [E.spl, E.min]; exact H.fst, by rw [E.spl, E.min]; exact H.snd⟩

theorem Head.fresh (rb : Page) (sm : Nat → Nat × Nat) : Head c (Data.fresh c rb sm) :=
  ⟨rfl, fun h => absurd h (by simp [Data.fresh, Spline.init]), fun _ h => absurd h (by simp [Data.fresh, Spline.init])⟩

theorem Head.sealed (hok : c.Ok K) {h : Nat → Nat} {P : Nat} (I : Spline.Inv d.spl h 0 d.next) (R : Room c d)
    (hml : d.min ≤ d.next) (hlive : 0 < d.next → d.min < d.next) (hP : d.next + 1 ≤ P) (hS : Spacious c P)
    (H : Head c d) : Head c (sealed c d) := by
  have hm := outMin_le hok hml R
  have hsum := R.sum
  have htwo := hok.two
  have hB0 := hok.B0
  have h4 := hok.spl
  -- after cleaning
  obtain ⟨s, hs⟩ : ∃ s, s = outSpl c d := ⟨_, rfl⟩
  have I1 : Spline.Inv s h 0 d.next := by
    rw [hs]; unfold outSpl
    split_ifs
    · exact I.clean _
    · exact I
  have H1 : s.size = c.splSize ∧ (1 ≤ s.count → (s.pt 0).2 ≤ outMin c d) ∧
      (c.noClean = false → 3 ≤ s.count → outMin c d ≤ (s.pt 1).2) := by
    have f1 := H.size
    by_cases ha : d.avail = 0 ∧ c.noClean = false
    · have e : s = d.spl.clean (d.min + c.B) := by rw [hs]; unfold outSpl; rw [if_pos ha]
      have em : outMin c d = d.min + c.B := by unfold outMin; rw [if_pos ha.1]
      rw [em]
      by_cases hc : 1 ≤ d.spl.count
      · have f2 := H.fst hc
        obtain ⟨g1, g2, g3, g4, g5⟩ := Spline.clean_head (mp := d.min + c.B) (show (d.spl.pt 0).2 ≤ d.min + c.B by omega) hc
        rw [e]
        exact ⟨g3.trans f1, fun _ => g4, fun _ => g5⟩
      · have e2 : d.spl.clean (d.min + c.B) = d.spl := by
          rcases Spline.clean_dropped d.spl (d.min + c.B) with h | ⟨m, hm, -⟩
          · exact h
          · omega
        rw [e, e2]
        exact ⟨f1, fun h => absurd h hc, fun _ h => absurd h (by omega)⟩
    · have e : s = d.spl := by rw [hs]; unfold outSpl; rw [if_neg ha]
      rw [e]
      refine ⟨f1, fun h => (H.fst h).trans hm.1, ?_⟩
      intro hnc h3
      have ha' : ¬ d.avail = 0 := fun h => ha ⟨h, hnc⟩
      have em : outMin c d = d.min := by unfold outMin; rw [if_neg ha']
      rw [em]; exact H.snd hnc h3
  obtain ⟨z1, z2, z3⟩ := H1
  have hmin1 : 0 < d.next → outMin c d + 1 ≤ d.next := by
    intro h0
    have := hlive h0
    unfold outMin
    split_ifs <;> omega
  -- the ring is not full
  have hroom : s.count < c.splSize := by
    rcases Nat.eq_zero_or_pos d.next with h0 | h0
    · have := (I1.zero h0).1; omega
    · rcases Nat.eq_or_lt_of_le (show 0 + 1 ≤ d.next by omega) with h1 | h1
      · have := (I1.one (by omega)).1; omega
      · have M := I1.many (by omega)
        have two := M.two
        rcases hS with hp | ⟨hnc, hp⟩
        · have := M.count_le (i := 0) (by omega); omega
        · by_cases h3 : 3 ≤ s.count
          · have := M.count_le (i := 1) (by omega)
            have := z3 hnc h3
            omega
          · omega
  -- the new point
  obtain ⟨k, hk⟩ : ∃ k, k = pageMinKey c (outPage d) := ⟨_, rfl⟩
  show Head c { outData c d with spl := (outSpl c d).add (pageMinKey c (outPage d)) d.next, wbuf := initPage c }
  rw [← hs, ← hk]
  have goal : (s.add k d.next).size = c.splSize ∧ (1 ≤ (s.add k d.next).count → ((s.add k d.next).pt 0).2 ≤ outMin c d) ∧
      (c.noClean = false → 3 ≤ (s.add k d.next).count → outMin c d ≤ ((s.add k d.next).pt 1).2) := by
    have hnum := I1.numAdd
    rw [Nat.sub_zero] at hnum
    unfold Spline.add
    simp only
    rcases Nat.eq_zero_or_pos d.next with h0 | h0
    · have hz := (I1.zero h0).1
      rw [if_pos (by omega)]
      refine ⟨z1, fun _ => ?_, fun _ h => ?_⟩
      · show ((Spline.setPt { s with numAdd := s.numAdd + 1 } 0 (k, d.next)).pt 0).2 ≤ outMin c d
        rw [Spline.pt_setPt _ _ (by simp only; omega) (by simp only; omega), if_pos rfl]
        simp only; omega
      · exfalso
        simp only [Spline.setPt] at h
        omega
    · rw [if_neg (by omega)]
      rcases Nat.eq_or_lt_of_le (show 0 + 1 ≤ d.next by omega) with h1 | h1
      · obtain ⟨o1, o2, o3, o4⟩ := I1.one (by omega)
        rw [if_pos (show s.numAdd + 1 = 2 by omega)]
        simp only
        rw [if_neg (show ¬ (k ≤ k ∧ s.numAdd + 1 ≠ 2) by omega)]
        obtain ⟨t, ht⟩ : ∃ t : Spline, t =
            { s with
              numAdd := s.numAdd + 1
              lower := (k, Spline.lowPage s.maxErr d.next)
              upper := (k, d.next + s.maxErr)
              lastKey := k
              lastLoc := d.next } := ⟨_, rfl⟩
        rw [← ht]
        have tt : t.temp = s.temp := by rw [ht]
        have tc : t.count = s.count := by rw [ht]
        have tz : t.size = s.size := by rw [ht]
        have tp : ∀ i, t.pt i = s.pt i := by intro i; rw [ht]; rfl
        have tl : t.lastLoc = d.next := by rw [ht]
        obtain ⟨m1, m2, m3⟩ := Spline.addMain_pts (s := t) (key := k) (page := d.next) (n := 1)
          (by rw [tt, o3]; simp only [Bool.false_eq_true, if_false]; omega) (le_refl _) (by omega)
        refine ⟨by omega, fun _ => ?_, fun _ h3 => ?_⟩
        · rw [m2 0 (by omega), tp]; exact z2 (by omega)
        · rcases m3 with m3 | ⟨-, m3⟩
          · omega
          · rw [m3]; simp only [tl]; omega
      · have M := I1.many (by omega)
        have two := M.two
        rw [if_neg (show ¬ (s.numAdd + 1 = 2) by omega)]
        simp only
        split_ifs with hdup
        · exact ⟨z1, z2, z3⟩
        · obtain ⟨t, ht⟩ : ∃ t : Spline, t = { s with numAdd := s.numAdd + 1 } := ⟨_, rfl⟩
          rw [← ht]
          have tt : t.temp = s.temp := by rw [ht]
          have tc : t.count = s.count := by rw [ht]
          have tz : t.size = s.size := by rw [ht]
          have tp : ∀ i, t.pt i = s.pt i := by intro i; rw [ht]; rfl
          have tl : t.lastLoc = s.lastLoc := by rw [ht]
          obtain ⟨m1, m2, m3⟩ := Spline.addMain_pts (s := t) (key := k) (page := d.next) (n := s.count - 1)
            (by rw [tt, M.temp]; simp only [if_true]; omega) (by omega) (by omega)
          refine ⟨by omega, fun _ => ?_, fun hnc h3 => ?_⟩
          · rw [m2 0 (by omega), tp]; exact z2 (by omega)
          · by_cases hc3 : 3 ≤ s.count
            · rw [m2 1 (by omega), tp]; exact z3 hnc hc3
            · rcases m3 with m3 | ⟨-, m3⟩
              · omega
              · rw [show s.count - 1 = 1 by omega] at m3
                rw [m3]
                have := M.lastLoc
                have := hmin1 h0
                simp only [tl]; omega
  exact ⟨goal.1, goal.2.1, goal.2.2⟩

theorem Head.accepted (hok : c.Ok K) {h : Nat → Nat} {P : Nat} (I : Spline.Inv d.spl h 0 d.next) (R : Room c d)
    (hml : d.min ≤ d.next) (hlive : 0 < d.next → d.min < d.next) (hP : d.next + 1 ≤ P) (hS : Spacious c P)
    (H : Head c d) (key : Nat) (data : List Byte) (loc : Nat) : Head c (accepted c d key data loc) := by
  unfold EDB.accepted
  split_ifs
  · have := H.sealed hok I R hml hlive hP hS
    exact ⟨this.size, this.fst, this.snd⟩
  · exact ⟨H.size, H.fst, H.snd⟩

/-- Every operation keeps the oldest spline point where it must be. -/
theorem Head.step (hok : c.Ok K) {P : Nat} (hB : Bounds c lo K P) (h255 : c.maxRec ≤ 255)
    (hS : Spacious c P) (T : Table c lo K d L) (hP : d.next + 1 ≤ P) (H : Head c d) {x x' : Idx} {op : Op} {d' : Data}
    {o : Out} (hg : ∀ k, op = .get k → k < K) (hq : ∀ q, op = .scan q → KeysOk K q ∧ c.useBmap = false)
    (e : step c d x op = .ok (d', x', o)) : Head c d' ∧ d'.next ≤ d.next + 1 := by
  have S := T.sim
  cases op with
  | put k v =>
    simp only [EDB.step] at e
    rw [putD_eq hok] at e
    have E := orderCheck_same (c := c) d k
    obtain ⟨d1, b, h1⟩ : ∃ d1 b, orderCheck c d k = (d1, b) := ⟨_, _, rfl⟩
    rw [h1] at e E
    simp only at e E
    have hn := E.next
    cases b with
    | false =>
      simp only [Bool.false_eq_true, if_false, Res.ok_bind] at e
      cases e; exact ⟨H.congr E, by omega⟩
    | true =>
      simp only [if_true, Res.ok_bind] at e
      cases e
      refine ⟨(H.congr E).accepted (h := firstKey L) hok (by rw [E.spl, E.next]; exact S.spl) (T.room.congr E)
        (by rw [E.min, E.next]; exact S.minle) (by rw [E.min, E.next]; exact S.live) (by rw [E.next]; exact hP) hS _ _ _, ?_⟩
      unfold EDB.accepted EDB.sealed outData
      split_ifs <;> simp only <;> omega
  | flush =>
    simp only [EDB.step] at e
    rw [flushD_eq hok.io hok.spline] at e
    split_ifs at e
    · simp only [Res.ok_bind] at e; cases e; exact ⟨H, by omega⟩
    · simp only [Res.ok_bind] at e; cases e
      exact ⟨H.sealed (h := firstKey L) hok S.spl T.room S.minle S.live hP hS, le_refl _⟩
  | get k =>
    obtain ⟨d1, code, out, e1, e2, -, -⟩ := get_ok hok.cmp hok.N0 hB hok.spline (hg k rfl) S (by omega) (by
      intro i hi
      have := T.cap.2
      omega)
    simp only [EDB.step] at e
    rw [e1] at e
    simp only [Res.ok_bind] at e
    cases e; exact ⟨H.congr e2, by rw [e2.next]; omega⟩
  | scan q =>
    obtain ⟨hq1, hbm⟩ := hq q rfl
    obtain ⟨d1, e1, e2, -⟩ := scanAll_ok hok.cmp hok.N0 hB hok.spline hbm S (by omega) T.cap x hq1
    simp only [EDB.step] at e
    rw [e1] at e
    simp only [Res.ok_bind] at e
    cases e; exact ⟨H.congr e2, by rw [e2.next]; omega⟩

/-- The predicted range is narrow. -/
theorem Head.width (hP0 : 0 < d.next) (S : Sim c lo K 0 d L) (H : Head c d) {key : Nat} {r : Spline.Found}
    (h : d.spl.find c.cmpKey key = .ok r) : r.high ≤ max r.low d.min + 2 * c.maxErr := by
  by_cases h0 : c.cmpKey key (d.spl.pt 0).1 < 0 ∨ d.spl.count ≤ 1
  · have hc : 1 ≤ d.spl.count := by
      rcases Nat.eq_or_lt_of_le (show 0 + 1 ≤ d.next by omega) with h1 | h1
      · have := (S.spl.one (by omega)).1; omega
      · have := (S.spl.many (by omega)).two; omega
    have := H.fst hc
    unfold Spline.find at h
    rw [if_pos h0] at h
    cases h
    simp only
    omega
  · have := Spline.find_width h h0
    rw [S.err] at this
    omega

/-! ### Scans -/

theorem readPage_cost {d1 : Data} {ph : Nat} (h : readPage d ph = (d1, true)) :
    d1.buffered = some ph ∧ d1.numReads ≤ d.numReads + 1 ∧ (d.buffered = some ph → d1.numReads = d.numReads) := by
  unfold readPage at h
  split_ifs at h with hb
  · cases h; exact ⟨hb, by omega, fun _ => rfl⟩
  · split at h
    · cases h
    · cases h; exact ⟨rfl, by simp, fun h => absurd h hb⟩

theorem recLoop_slot {it : Iter} {p : Page} : ∀ f i j o, recLoop c it p f i = (j, some o) → i < j := by
  intro f
  induction f with
  | zero => intro i j o h; simp [recLoop] at h
  | succ f ih =>
    intro i j o h
    unfold recLoop at h
    simp only at h
    split_ifs at h
    · have := ih _ _ _ h; omega
    · cases h; omega
    · have := ih _ _ _ h; omega
    · have := ih _ _ _ h; omega
    · cases h; omega

/-- Number of stored pages an iterator has finished or begun. -/
def begun (d : Data) (it : Iter) : Nat := if it.page < d.next ∧ 0 < it.slot then it.page + 1 else min it.page d.next

/-- A page that the iterator has begun is in the read buffer. -/
def Paid (c : Cfg) (d : Data) (it : Iter) : Prop := it.page < d.next → 0 < it.slot → d.buffered = some (it.page % c.N)

/-- Page `stop` ends the scan: its records are above the largest key asked for. -/
structure Stop (L : Log) (d : Data) (q : Range) (stop : Nat) : Prop where
  le : stop ≤ d.next
  max : stop < d.next → ∃ b, q.maxKey = some b ∧ ∀ x ∈ L.pages.getD stop [], b < x.1
  min : stop < d.next → ∀ b, q.minKey = some b → ∀ x ∈ L.pages.getD stop [], b ≤ x.1

/-- The iterator has not passed the page that ends the scan. -/
def Before (d : Data) (stop : Nat) (it : Iter) : Prop :=
  stop = d.next ∨ it.page < stop ∨ (it.page = stop ∧ it.slot = 0)

theorem Stop.congr {d' : Data} {q : Range} {stop : Nat} (H : Stop L d q stop) (E : SameButCache d d') : Stop L d' q stop :=
  ⟨by rw [E.next]; exact H.le, by rw [E.next]; exact H.max, by rw [E.next]; exact H.min⟩

theorem nextLoop_cost (hc : CmpOk c.cmpKey K) (hN : 0 < c.N) (x : Idx) (stop : Nat) : ∀ (f : Nat) (d : Data) (it : Iter),
    Sim c lo K a d L → KeysOk K it.range → it.qbm = none → d.min ≤ it.page → Stop L d it.range stop → Before d stop it →
    Paid c d it → ∀ d' x' it' out, nextLoop c f d x it = .ok (d', x', it', out) →
      Paid c d' it' ∧ d'.next = d.next ∧ d'.numReads + begun d it ≤ d.numReads + begun d it' ∧ begun d it' ≤ stop + 1 ∧
        ∀ r, out = some r → Before d stop it' := by
  intro f
  induction f with
  | zero => intro d it _ _ _ _ _ _ _ d' x' it' out h; cases h
  | succ f ih =>
    intro d it S hq hb hmin hst hbf hpd d' x' it' out h
    have hn := S.next
    unfold nextLoop at h
    by_cases hgt : it.page > d.next
    · rw [if_pos hgt] at h
      cases h
      refine ⟨hpd, rfl, le_refl _, ?_, fun r hr => by cases hr⟩
      have := hst.le
      unfold begun Before at *
      split_ifs <;> omega
    · rw [if_neg hgt] at h
      have hsk : idxSkip c x it = .ok (x, some false) := by unfold idxSkip; rw [hb]
      rw [hsk] at h
      simp only [Res.ok_bind] at h
      by_cases he : it.page = d.next
      · -- the write buffer
        rw [if_pos he] at h
        simp only [if_true, he] at h
        have hs : stop = d.next := by
          have := hst.le
          unfold Before at hbf; omega
        split at h
        · rename_i hr
          obtain ⟨p1, p2, p3, p4, p5⟩ := ih d { it with page := d.next + 1, slot := 0 } S hq hb (by simp only; omega) hst
            (Or.inl hs) (fun h => by simp only at h; omega) d' x' it' out h
          refine ⟨p1, p2, ?_, p4, p5⟩
          unfold begun at p3 ⊢
          simp only at p3
          split_ifs at p3 ⊢ <;> omega
        · rename_i i o hr
          cases h
          refine ⟨fun h => by simp only at h; omega, rfl, ?_, ?_, fun _ _ => Or.inl hs⟩
          · unfold begun; simp only; split_ifs <;> omega
          · unfold begun; simp only; split_ifs <;> omega
      · rw [if_neg he] at h
        have hlt : it.page < d.next := by omega
        obtain ⟨d1, r1, r2, r3, -, r5, -, -⟩ := S.readPage hN (l := it.page) hmin (by omega)
        obtain ⟨k1, k2, k3⟩ := readPage_cost r1
        rw [r1] at h
        simp only [if_true] at h
        have hne : ¬ it.page = d1.next := by rw [r2.next]; exact he
        rw [if_neg hne] at h
        have hcost : d1.numReads + begun d it ≤ d.numReads + (it.page + 1) := by
          unfold begun
          split_ifs with hs
          · rw [k3 (hpd hs.1 hs.2)]
          · have : it.slot = 0 := by omega
            omega
        have hn1 := r2.next
        split at h
        · rename_i hr
          -- not the last page
          have hbf' : Before d stop { it with page := it.page + 1, slot := 0 } := by
            unfold Before at hbf ⊢
            by_cases hsn : stop = d.next
            · exact Or.inl hsn
            rcases hbf with h1 | h1 | ⟨h1, h2⟩
            · exact absurd h1 hsn
            · by_cases h3 : it.page + 1 < stop
              · exact Or.inr (Or.inl h3)
              · exact Or.inr (Or.inr ⟨show it.page + 1 = stop by omega, rfl⟩)
            · exfalso
              have hsl : stop < d.next := by omega
              obtain ⟨b, b1, b2⟩ := hst.max hsl
              have b3 := hst.min hsl
              rw [h1] at r5
              have hll : stop < L.pages.length := by omega
              have hne' : L.pages.getD stop [] ≠ [] := by rw [getD_page hll]; exact S.full _ (List.getElem_mem hll)
              have hpos : 0 < pageCount d1.rbuf := by
                rw [← recs_length c, r5]; exact List.length_pos_iff.mpr hne'
              have hx0 : (slotKey c d1.rbuf 0, slotData c d1.rbuf 0) ∈ L.pages.getD stop [] := by
                rw [← r5]; exact mem_recs.mpr ⟨0, hpos, rfl⟩
              have hkb : slotKey c d1.rbuf 0 < K := by
                rw [getD_page hll] at hx0
                exact (S.bound _ (mem_all_page hll hx0)).2
              obtain ⟨t1, t2, -⟩ := tests hc hq hkb (slotData c d1.rbuf 0)
              rw [h2, show pageCount d1.rbuf - 0 = (pageCount d1.rbuf - 1) + 1 by omega] at hr
              unfold recLoop at hr
              simp only at hr
              rw [if_neg (fun hc1 => by
                obtain ⟨b', h3, h4⟩ := t1.mp hc1
                have := b3 b' h3 _ hx0
                simp only at this
                omega), if_pos (t2.mpr ⟨b, b1, b2 _ hx0⟩)] at hr
              cases hr
          obtain ⟨p1, p2, p3, p4, p5⟩ := ih d1 { it with page := it.page + 1, slot := 0 } r3 hq hb
            (by rw [r2.min]; simp only; omega) (hst.congr r2) (by unfold Before at hbf' ⊢; rw [hn1]; exact hbf')
            (fun _ h => absurd h (Nat.lt_irrefl 0)) d' x' it' out h
          have e1 : ∀ i : Iter, begun d1 i = begun d i := by intro i; unfold begun; rw [hn1]
          rw [e1, e1] at p3
          rw [e1] at p4
          refine ⟨p1, by rw [p2, hn1], ?_, p4, fun r hr => ?_⟩
          · have : begun d { it with page := it.page + 1, slot := 0 } = it.page + 1 := by
              unfold begun; simp only; split_ifs <;> omega
            omega
          · have := p5 r hr
            unfold Before at this ⊢
            rw [hn1] at this; exact this
        · rename_i i o hr
          cases h
          have hi := recLoop_slot _ _ _ _ hr
          have eb : begun d { it with slot := i } = it.page + 1 := by
            unfold begun; simp only; rw [if_pos ⟨hlt, by omega⟩]
          refine ⟨fun _ _ => k1, hn1, by omega, ?_, fun r hor => ?_⟩
          · rw [eb]
            have := hst.le
            unfold Before at hbf
            omega
          · unfold Before at hbf ⊢
            simp only
            by_cases hsn : stop = d.next
            · exact Or.inl hsn
            rcases hbf with h1 | h1 | ⟨h1, h2⟩
            · exact absurd h1 hsn
            · exact Or.inr (Or.inl h1)
            · exfalso
              have hsl : stop < d.next := by omega
              obtain ⟨b, b1, b2⟩ := hst.max hsl
              have hll : stop < L.pages.length := by omega
              have hsp := S.sortedPage hll (p := d'.rbuf) (by rw [r5, h1, getD_page hll])
              obtain ⟨j', out', e1, -, -, -, e5⟩ := recLoop_ok hc hq hsp (pageCount d'.rbuf - it.slot) it.slot rfl
              rw [hr] at e1
              cases e1
              obtain ⟨-, pre, q1, q2, -⟩ := e5 r (by rw [hor])
              have hm : r ∈ L.pages.getD stop [] := by
                rw [← h1, ← r5]
                exact List.mem_of_mem_drop (i := it.slot) (by rw [q1]; simp)
              have := b2 r hm
              unfold Range.has at q2
              rw [b1] at q2
              simp only [Option.all_some, Bool.and_eq_true, decide_eq_true_eq] at q2
              omega

theorem collect_cost (hc : CmpOk c.cmpKey K) (hN : 0 < c.N) (x : Idx) (stop : Nat) : ∀ (f : Nat) (d : Data) (it : Iter),
    Sim c lo K a d L → KeysOk K it.range → it.qbm = none → d.min ≤ it.page → Stop L d it.range stop → Before d stop it →
    Paid c d it → begun d it ≤ stop + 1 → ∀ d' x' it' rows, collect c f d x it = .ok (d', x', it', rows) →
      d'.numReads + begun d it ≤ d.numReads + min (stop + 1) d.next := by
  intro f
  induction f with
  | zero => intro d it _ _ _ _ _ _ _ _ d' x' it' rows h; cases h
  | succ f ih =>
    intro d it S hq hb hmin hst hbf hpd hbs d' x' it' rows h
    obtain ⟨d1, it1, out, e1, e2, e3, e4⟩ := next_ok hc hN x S hq hb hmin
    have hle : ∀ i : Iter, begun d i ≤ d.next := by intro i; unfold begun; split_ifs <;> omega
    obtain ⟨p1, p2, p3, p4, p5⟩ := nextLoop_cost hc hN x stop _ d it S hq hb hmin hst hbf hpd d1 x it1 out e1
    unfold collect at h
    rw [e1, Res.ok_bind] at h
    have := hle it1
    cases out with
    | none =>
      simp only at h
      cases h
      omega
    | some r =>
      simp only at h
      obtain ⟨⟨d2, x2, it2, rows2⟩, g1, g2⟩ := Res.bind_eq_ok h
      simp only at g2
      cases g2
      have hb1 : ∀ i : Iter, begun d1 i = begun d i := by intro i; unfold begun; rw [p2]
      have := ih d1 it1 e3 (by rw [e4.range]; exact hq) (by rw [e4.qbm]; exact hb)
        (by rw [e2.min]; have := e4.page; omega) (by rw [e4.range]; exact hst.congr e2)
        (by have := p5 r rfl; unfold Before at this ⊢; rw [p2]; exact this) p1 (by rw [hb1]; exact p4) _ _ _ _ g1
      rw [hb1, p2] at this
      omega

/-- The first page at or after `u` whose first key is above `b`. -/
theorem exists_stop (h : Nat → Nat) (b : Nat) : ∀ n u, ∃ v, u ≤ v ∧ v ≤ u + n ∧ (∀ l, u ≤ l → l < v → h l ≤ b) ∧
    (v < u + n → b < h v) := by
  intro n
  induction n with
  | zero => intro u; exact ⟨u, le_refl _, le_refl _, fun l h1 h2 => by omega, fun h => by omega⟩
  | succ n ih =>
    intro u
    by_cases hu : h u ≤ b
    · obtain ⟨v, v1, v2, v3, v4⟩ := ih (u + 1)
      refine ⟨v, by omega, by omega, fun l h1 h2 => ?_, fun h => v4 (by omega)⟩
      rcases Nat.eq_or_lt_of_le h1 with he | hl
      · rw [← he]; exact hu
      · exact v3 l hl h2
    · exact ⟨u, le_refl _, by omega, fun l h1 h2 => by omega, fun _ => by omega⟩

/-- Consecutive pages that meet a condition are counted. -/
theorem count_run {α : Type} (P : α → Bool) (l : List α) {m u v : Nat} (hm : m ≤ u) (hv : v ≤ l.length)
    (h : ∀ i (hi : i < l.length), u ≤ i → i < v → P l[i] = true) : v - u ≤ (l.drop m).countP P := by
  have h1 : ((l.drop u).take (v - u)).countP P = v - u := by
    rw [List.countP_eq_length.mpr]
    · rw [List.length_take, List.length_drop]; omega
    · intro x hx
      obtain ⟨i, hi, rfl⟩ := List.mem_iff_getElem.mp hx
      rw [List.length_take, List.length_drop] at hi
      rw [List.getElem_take, List.getElem_drop]
      exact h _ (by omega) (by omega) (by omega)
  rw [← h1]
  refine List.Sublist.countP_le ((List.take_sublist _ _).trans ?_)
  obtain ⟨w, rfl⟩ := Nat.exists_eq_add_of_le hm
  rw [← List.drop_drop]
  exact List.drop_sublist _ _

theorem head_le {rs : List Rec} (h : rs.Pairwise (fun r s => r.1 < s.1)) (hne : rs ≠ []) {y : Rec} (hy : y ∈ rs) :
    (rs.head hne).1 ≤ y.1 := by
  cases rs with
  | nil => exact absurd rfl hne
  | cons r t =>
    rw [List.head_cons]
    rcases List.mem_cons.mp hy with rfl | hy
    · exact le_refl _
    · exact ((List.pairwise_cons.mp h).1 y hy).le

/-- How many pages a complete scan reads, given the page from which on no key is below the smallest key asked for. -/
theorem scan_cost (hok : c.Ok K) {P : Nat} (hB : Bounds c lo K P) (hbm : c.useBmap = false) (S : Sim c lo K 0 d L)
    (hP : d.next ≤ P) (C : Capped c.maxRec L) (x : Idx) {q : Range} (hq : KeysOk K q) {it : Iter}
    (hi : initIter c d q.minKey q.maxKey q.minData q.maxData = .ok it) {u : Nat} (hu : it.page ≤ u)
    (hlow : ∀ l, u ≤ l → l < d.next → ∀ b, q.minKey = some b → b ≤ firstKey L l) :
    ∃ d', scanAll c d x q = .ok (d', x, Spec.scan c.cmpData q (L.live d.min)) ∧
      d'.numReads ≤ d.numReads + (d.next - d.min) ∧
      d'.numReads ≤ d.numReads + (u - it.page) + 1 + Spec.pagesHit q (L.pages.drop d.min) := by
  obtain ⟨it0, i1, i2, i3, i4, i5, i6, i7⟩ := initIter_ok hok.cmp hB hok.spline hbm S hP hq
  rw [hi] at i1
  cases i1
  have hn := S.next
  have page : ∀ l, (hl : l < d.next) → ∀ y ∈ L.pages.getD l [], firstKey L l ≤ y.1 := by
    intro l hl y hy
    have hll : l < L.pages.length := by omega
    have hne := S.full _ (List.getElem_mem hll)
    rw [firstKey_eq hll hne]
    rw [getD_page hll] at hy
    exact head_le (Log_page_sorted S.sorted hll) hne hy
  -- the page that ends the scan
  have hstop : ∃ v, min u d.next ≤ v ∧ Stop L d q v ∧ v - u ≤ Spec.pagesHit q (L.pages.drop d.min) := by
    have inRange : ∀ v, v ≤ d.next → (∀ l, u ≤ l → l < v → ∀ b, q.maxKey = some b → firstKey L l ≤ b) →
        v - u ≤ Spec.pagesHit q (L.pages.drop d.min) := by
      intro v hv hmx
      refine count_run _ _ (by omega) (by omega) ?_
      intro l hl h1 h2
      have hne := S.full _ (List.getElem_mem hl)
      rw [List.any_eq_true]
      refine ⟨L.pages[l].head hne, List.head_mem hne, ?_⟩
      have a1 := hlow l h1 (by omega)
      have a2 := hmx l h1 h2
      rw [firstKey_eq hl hne] at a1 a2
      unfold Range.hasKey
      rw [Bool.and_eq_true]
      constructor
      · cases hk : q.minKey with
        | none => rfl
        | some b => simpa using a1 b hk
      · cases hk : q.maxKey with
        | none => rfl
        | some b => simpa using a2 b hk
    cases hmk : q.maxKey with
    | none =>
      exact ⟨d.next, Nat.min_le_right _ _, ⟨le_refl _, fun h => absurd h (Nat.lt_irrefl _), fun h => absurd h (Nat.lt_irrefl _)⟩,
        inRange _ (le_refl _) (fun l _ _ b hb => by rw [hmk] at hb; cases hb)⟩
    | some b =>
      obtain ⟨v, v1, v2, v3, v4⟩ := exists_stop (firstKey L) b (d.next - min u d.next) (min u d.next)
      refine ⟨v, v1, ⟨by omega, ?_, ?_⟩, inRange v (by omega) ?_⟩
      · intro hv
        refine ⟨b, hmk, fun y hy => ?_⟩
        have := v4 (by omega)
        have := page v hv y hy
        omega
      · intro hv b' hb' y hy
        have := hlow v (by omega) hv b' hb'
        have := page v hv y hy
        omega
      · intro l h1 h2 b' hb'
        rw [hmk] at hb'
        cases hb'
        exact v3 l (by omega) h2
  obtain ⟨v, v1, v2, v3⟩ := hstop
  have hlen := rest_length C it.page
  rw [← hn] at hlen
  obtain ⟨d', it', g1, g2, g3⟩ := collect_ok hok.cmp hok.N0 x ((d.next + 1) * c.maxRec + 1) d it S (by rw [i2]; exact hq) i3 i5
    (by rw [i4]; omega)
  have hbg : begun d it = it.page := by unfold begun; rw [i4]; simp; omega
  have hv := v2.le
  have := collect_cost hok.cmp hok.N0 x v _ d it S (by rw [i2]; exact hq) i3 i5 (by rw [i2]; exact v2) (by
      unfold Before; rw [i4]; omega) (fun _ h => by rw [i4] at h; omega) (by rw [hbg]; omega) _ _ _ _ g1
  rw [hbg] at this
  refine ⟨d', ?_, by omega, by omega⟩
  unfold scanAll
  rw [hi, Res.ok_bind, g1, Res.ok_bind, i2, i4, i7]

/-- From the page after the predicted range on, no key is below the key searched for. -/
theorem above_high (hc : CmpOk c.cmpKey K) {P : Nat} (hB : Bounds c lo K P) {k : Nat} (hk : k < K)
    (S : Sim c lo K 0 d L) (hP : d.next ≤ P) (hab : 0 < d.next) {r : Spline.Found} (hr : d.spl.find c.cmpKey k = .ok r) :
    ∀ l, r.high < l → l < d.next → k < firstKey L l := by
  have F := S.feed hB hP hab
  have hn := S.next
  have hh : ∀ p, 0 ≤ p → p < d.next → firstKey L p < K := fun p _ h2 => (S.firstKey_bound (by omega)).2
  obtain ⟨r', hr', G⟩ := S.spl.find F hab hc hk hh
  rw [hr] at hr'
  cases hr'
  intro l h1 h2
  by_contra hcon
  -- the last page whose first key is at most `k`
  obtain ⟨v, v1, v2, v3, v4⟩ := exists_stop (firstKey L) k (d.next - l) l
  have hv : l < v := by
    rcases Nat.eq_or_lt_of_le v1 with he | h
    · exact absurd (v4 (by omega)) (by rw [← he]; exact hcon)
    · exact h
  have := G.bracket (v - 1) (by omega) (by omega) (v3 (v - 1) (by omega) (by omega)) (by
    intro hlt
    rw [show v - 1 + 1 = v by omega] at hlt ⊢
    exact v4 (by omega))
  omega

end

end EDB
