import Verif.Proofs.VarRecover

/-!
# Opening a variable data file that may have wrapped
-/

namespace EDB

variable {c : Cfg} {n b : Nat} {v : Var} {d : Data} {f : Nat → Option Page}

/-- The file after `n` pages have been written around it; some of the pages about to be overwritten may have been erased. -/
structure RView (N B n : Nat) (f : Nat → Option Page) : Prop where
  old : ∀ l, l < n → n ≤ l + N → ∃ q, f (l % N) = some q ∧ (pageId q = l ∨ pageId q = 2 ^ 32 - 1)
  good : ∀ l, l < n → ((n - 1) / N * N ≤ l ∨ n + (B - n % B) ≤ l + N) → ∃ q, f (l % N) = some q ∧ pageId q = l
  rest : ∀ j, n ≤ j → n < N → f j = none

/-- What has been read from position `pos`. -/
def ReadAt (v : Var) (pos : Nat) (more : Bool) : Prop :=
  (v.dev.file pos = some v.rbuf ∧ more = true) ∨ (v.dev.file pos = none ∧ more = false)

theorem readAt (hs : VSync v) (pos : Nat) : ReadAt (readVar v pos).1 pos (readVar v pos).2 := by
  obtain ⟨r1, -, r3⟩ := readVar_sync hs pos
  unfold ReadAt
  rw [r1.dev]
  cases h : v.dev.file pos with
  | none => exact Or.inr ⟨rfl, by rw [readVar_none hs h]⟩
  | some p =>
    obtain ⟨h1, h2⟩ := r3 p h
    exact Or.inl ⟨by rw [h2], h1⟩

/-- Where the newest round of the ring begins. -/
theorem base_facts {N n : Nat} (hN : 0 < N) (h0 : 0 < n) :
    N ∣ (n - 1) / N * N ∧ (n - 1) / N * N < n ∧ n ≤ (n - 1) / N * N + N := by
  have h1 := Nat.div_add_mod (n - 1) N
  have h2 := Nat.mod_lt (n - 1) hN
  rw [Nat.mul_comm] at h1
  exact ⟨Dvd.intro_left _ rfl, by omega, by omega⟩

theorem base_mod {N b i : Nat} (hb : N ∣ b) (hi : i < N) : (b + i) % N = i := by
  obtain ⟨t, rfl⟩ := hb
  rw [Nat.mul_add_mod, Nat.mod_eq_of_lt hi]

theorem followVar_ring (hN : 0 < c.numVar) (h32 : n + 1 < 2 ^ 32) (h0 : 0 < n) (hb : b = (n - 1) / c.numVar * c.numVar) :
    ∀ (fuel : Nat) (v : Var) (pos : Nat) (more : Bool), VSync v → RView c.numVar c.B n v.dev.file → 0 < pos → pos ≤ n - b →
    ReadAt v pos more → n - b ≤ pos + fuel →
    ∃ v' more', followVar c fuel v pos (b + pos - 1) more = (v', n - b, n - 1, more') ∧ VSame v v' ∧ VSync v' ∧
      ReadAt v' (n - b) more' := by
  obtain ⟨b1, b2, b3⟩ := base_facts hN h0
  rw [← hb] at b1 b2 b3
  intro fuel
  induction fuel with
  | zero =>
    intro v pos more hs hv p0 p1 hr hf
    have : pos = n - b := by omega
    subst this
    refine ⟨v, more, ?_, rfl, hs, hr⟩
    rw [followVar, show b + (n - b) - 1 = n - 1 by omega]
  | succ fuel ih =>
    intro v pos more hs hv p0 p1 hr hf
    rcases Nat.lt_or_ge pos (n - b) with hlt | hge
    · obtain ⟨q, q1, q2⟩ := hv.good (b + pos) (by omega) (Or.inl (by omega))
      rw [base_mod b1 (by omega)] at q1
      have hq : v.rbuf = q ∧ more = true := by
        rcases hr with ⟨r1, r2⟩ | ⟨r1, r2⟩
        · rw [q1] at r1; exact ⟨(Option.some.inj r1).symm, r2⟩
        · rw [q1] at r1; cases r1
      unfold followVar
      rw [if_pos ⟨hq.2, by omega⟩, if_pos (by
        rw [hq.1, q2]
        refine ⟨base_mod b1 (by omega), ?_⟩
        rw [Nat.mod_eq_of_lt (by omega)]; omega)]
      simp only
      obtain ⟨r1, r2, r3⟩ := readVar_sync hs (pos + 1)
      obtain ⟨v', m', e1, e2, e3, e4⟩ := ih (readVar v (pos + 1)).1 (pos + 1) (readVar v (pos + 1)).2 r2 (by rw [r1.dev]; exact hv)
        (by omega) (by omega) (readAt hs _) (by omega)
      refine ⟨v', m', ?_, r1.trans e2, e3, e4⟩
      rw [show pageId v.rbuf = b + (pos + 1) - 1 by rw [hq.1, q2]; omega]
      exact e1
    · have : pos = n - b := by omega
      subst this
      refine ⟨v, more, ?_, rfl, hs, hr⟩
      have hl : b + (n - b) - 1 = n - 1 := by omega
      unfold followVar
      by_cases hc : more = true ∧ n - b < c.numVar
      · rw [if_pos hc]
        have hq : v.dev.file (n - b) = some v.rbuf := by
          rcases hr with ⟨r1, r2⟩ | ⟨r1, r2⟩
          · exact r1
          · rw [hc.1] at r2; cases r2
        have hn : c.numVar ≤ n := by
          by_contra hlt
          have hb0 : b = 0 := by
            rw [hb, Nat.div_eq_of_lt (by omega), Nat.zero_mul]
          rw [hv.rest (n - b) (by omega) (by omega)] at hq
          cases hq
        obtain ⟨q, q1, q2⟩ := hv.old (n - c.numVar) (by omega) (by omega)
        have hm : (n - c.numVar) % c.numVar = n - b := by
          rw [← Nat.mod_eq_sub_mod hn]
          conv_lhs => rw [show n = b + (n - b) by omega]
          exact base_mod b1 hc.2
        rw [hm, hq] at q1
        cases q1
        rw [if_neg, hl]
        rintro ⟨-, he⟩
        rw [hl, show n - 1 + 1 = n by omega, Nat.mod_eq_of_lt (by omega)] at he
        omega
      · rw [if_neg hc, hl]

theorem setMinRec_var (c : Cfg) (d : Data) (u : Var) : (setMinRec c d u).2.1 = { u with minRec := (setMinRec c d u).2.1.minRec } := by
  unfold setMinRec
  simp only
  split_ifs <;> rfl

/-- The space found when the file is opened. -/
def foundSpace (N B n : Nat) : Nat := if n ≤ N then N - n else if n % N = 0 then 0 else B - n % B

/-- Opening the variable data file, up to the key of the oldest data. -/
theorem recoverVar_ring (hB : 0 < c.B) (hd : c.B ∣ c.numVar) (hlt : c.B < c.numVar) (hNV : c.numVar < 2 ^ 32) (h32 : n + 1 < 2 ^ 32)
    (h0 : 0 < n) (hs : VSync v) (hv : RView c.numVar c.B n v.dev.file)
    (hblank : n = 1 → ∀ p, v.dev.file 0 = some p → vkey c p ≠ 0) :
    ∃ u : Var, VSync u ∧ u = { v with next := n, rbuf := u.rbuf, buffered := u.buffered } ∧
      v.dev.file ((n + foundSpace c.numVar c.B n - c.numVar) % c.numVar) = some u.rbuf ∧
      pageId u.rbuf = n + foundSpace c.numVar c.B n - c.numVar ∧
      recoverVar c d v = if (setMinRec c d u).2.2 then ((setMinRec c d u).1, { (setMinRec c d u).2.1 with
        avail := foundSpace c.numVar c.B n, loc := n % c.numVar * c.pageSize + c.vhdr }, 0)
        else ((setMinRec c d u).1, (setMinRec c d u).2.1, -1) := by
  have hN : 0 < c.numVar := by omega
  obtain ⟨b1, b2, b3⟩ := base_facts hN h0
  generalize hb : (n - 1) / c.numVar * c.numVar = b at b1 b2 b3
  have hgood : ∀ i, i < n - b → ∃ q, v.dev.file i = some q ∧ pageId q = b + i := by
    intro i hi
    obtain ⟨q, q1, q2⟩ := hv.good (b + i) (by omega) (Or.inl (by omega))
    rw [base_mod b1 (by omega)] at q1
    exact ⟨q, q1, q2⟩
  -- the loop that finds the first page
  obtain ⟨v1, pos, more, a1, a2, a3, a4, a5, a6⟩ : ∃ v1 pos more, probeVar c 3 0 (readVar v 0).1 0 (readVar v 0).2 =
      ⟨v1, pos, some (b + pos - 1), more⟩ ∧ VSame v v1 ∧ VSync v1 ∧ 0 < pos ∧ pos ≤ n - b ∧ ReadAt v1 pos more := by
    obtain ⟨p, p1, p2⟩ := hgood 0 (by omega)
    obtain ⟨r1, r2, r3⟩ := readVar_sync hs 0
    obtain ⟨s1, s2⟩ := r3 p p1
    have hdev : (readVar v 0).1.dev = v.dev := r1.dev
    generalize (readVar v 0).1 = u at r1 r2 s2 hdev ⊢
    rw [s1]
    obtain ⟨t1, t2, t3⟩ := readVar_sync r2 1
    unfold probeVar
    rw [if_pos (by simp), if_pos (by rw [s2, p2, Nat.add_zero]; exact Nat.mod_eq_zero_of_dvd b1), Nat.zero_add]
    simp only
    by_cases hk : pageId u.rbuf ≠ 0 ∨ leNat (rd u.rbuf 4 c.keySize) ≠ 0
    · rw [if_pos hk]
      exact ⟨(readVar u 1).1, 1, (readVar u 1).2, by rw [s2, p2]; rfl, r1.trans t1, t2, by omega, by omega, readAt r2 1⟩
    · rw [if_neg hk]
      push Not at hk
      have hb0 : b = 0 := by rw [s2, p2] at hk; omega
      have hw1 : 1 < n := by
        by_contra hcon
        refine hblank (by omega) p p1 ?_
        rw [s2] at hk
        exact hk.2
      obtain ⟨q, q1, q2⟩ := hgood 1 (by omega)
      have hdev2 : (readVar u 1).1.dev = v.dev := by rw [t1.dev]; exact hdev
      obtain ⟨z1, z2⟩ := t3 q (by rw [hdev]; exact q1)
      generalize (readVar u 1).1 = y at t1 t2 z2 hdev2 ⊢
      rw [z1]
      obtain ⟨x1, x2, x3⟩ := readVar_sync t2 2
      unfold probeVar
      rw [if_pos (by simp), if_pos (by rw [z2, q2]; exact base_mod b1 (by omega))]
      simp only
      rw [if_pos (Or.inl (by rw [z2, q2]; omega))]
      exact ⟨(readVar y 2).1, 2, (readVar y 2).2, by rw [z2, q2]; rfl, (r1.trans t1).trans x1, x2, by omega, by omega, readAt t2 2⟩
  obtain ⟨v2, more2, e1, e2, e3, e4⟩ := followVar_ring hN h32 h0 hb.symm c.numVar v1 pos more a3 (by rw [a2.dev]; exact hv) a4 a5 a6
    (by omega)
  have hsame : VSame v v2 := a2.trans e2
  -- the counters, given where the oldest page is
  have key : ∀ (w : Var) (o : Nat), VSame v w → VSync w → (∃ q, v.dev.file (o % c.numVar) = some q ∧ pageId q = o) →
      n + foundSpace c.numVar c.B n = o + c.numVar → foundSpace c.numVar c.B n < 2 ^ 32 →
      ∃ u : Var, VSync u ∧ u = { v with next := n, rbuf := u.rbuf, buffered := u.buffered } ∧
      v.dev.file ((n + foundSpace c.numVar c.B n - c.numVar) % c.numVar) = some u.rbuf ∧
      pageId u.rbuf = n + foundSpace c.numVar c.B n - c.numVar ∧
      setVarCounters c d w (n - 1) (o % c.numVar) = if (setMinRec c d u).2.2 then ((setMinRec c d u).1, { (setMinRec c d u).2.1 with
        avail := foundSpace c.numVar c.B n, loc := n % c.numVar * c.pageSize + c.vhdr }, 0)
        else ((setMinRec c d u).1, (setMinRec c d u).2.1, -1) := by
    rintro w o w1 w2 ⟨q, q1, q2⟩ hsp hsm
    have w3 : VSync { w with next := n } := w2
    obtain ⟨r1, r2, r3⟩ := readVar_sync w3 (o % c.numVar)
    obtain ⟨s1, s2⟩ := r3 q (by show w.dev.file _ = _; rw [w1.dev]; exact q1)
    refine ⟨(readVar { w with next := n } (o % c.numVar)).1, r2, ?_, ?_, ?_, ?_⟩
    · unfold VSame at r1 w1
      rw [r1]
      simp only
      rw [w1]
    · rw [hsp, Nat.add_sub_cancel, s2]; exact q1
    · rw [hsp, Nat.add_sub_cancel, s2]; exact q2
    · unfold setVarCounters
      simp only
      rw [show (n - 1 + 1) % 2 ^ 32 = n by rw [Nat.mod_eq_of_lt (by omega)]; omega, s1, if_pos rfl]
      have hu : u32 (↑c.numVar + ↑(pageId (readVar { w with next := n } (o % c.numVar)).1.rbuf) - ↑(n - 1) - 1) =
          foundSpace c.numVar c.B n := by
        rw [s2, q2]
        unfold u32
        omega
      have hnx : (readVar { w with next := n } (o % c.numVar)).1.next = n := by rw [r1]
      rw [hu, hnx]
  have hrec : recoverVar c d v = finishVar c d v2 (n - b) (n - 1) more2 := by
    unfold recoverVar
    simp only
    rw [a1]
    simp only
    rw [e1]
  rw [hrec]
  unfold finishVar
  have hdn : c.B ∣ b := hd.trans b1
  by_cases hc : more2 = true ∧ n - b < c.numVar
  · rw [if_pos hc]
    simp only
    have hq : v.dev.file (n - b) = some v2.rbuf := by
      rw [← hsame.dev]
      rcases e4 with ⟨r1, r2⟩ | ⟨r1, r2⟩
      · exact r1
      · rw [hc.1] at r2; cases r2
    have hn : c.numVar ≤ n := by
      by_contra hlt2
      have hb0 : b = 0 := by rw [← hb, Nat.div_eq_of_lt (by omega), Nat.zero_mul]
      rw [hv.rest (n - b) (by omega) (by omega)] at hq
      cases hq
    have hbpos : b ≠ 0 := by omega
    have hnb : n % c.numVar = n - b := by
      conv_lhs => rw [show n = b + (n - b) by omega]
      exact base_mod b1 hc.2
    have hbN : c.numVar ≤ b := Nat.le_of_dvd (by omega) b1
    have hmB : (n - b) % c.B = n % c.B := by
      obtain ⟨t, ht⟩ := hdn
      conv_rhs => rw [show n = c.B * t + (n - b) by omega]
      rw [Nat.mul_add_mod]
    have hsp : foundSpace c.numVar c.B n = c.B - n % c.B := by
      unfold foundSpace
      rw [if_neg (by omega), if_neg (by omega)]
    have hml := Nat.mod_lt n hB
    rw [hmB]
    have hph : (n - b + (c.B - n % c.B)) % c.numVar = (n + (c.B - n % c.B) - c.numVar) % c.numVar := by
      have h1 : (n + (c.B - n % c.B) - c.numVar) % c.numVar = (n + (c.B - n % c.B)) % c.numVar := by
        rw [← Nat.mod_eq_sub_mod (by omega)]
      rw [h1]
      obtain ⟨t, ht⟩ := b1
      conv_rhs => rw [show n + (c.B - n % c.B) = c.numVar * t + (n - b + (c.B - n % c.B)) by omega]
      rw [Nat.mul_add_mod]
    rw [hph]
    obtain ⟨q, q1, q2⟩ := hv.good (n + (c.B - n % c.B) - c.numVar) (by omega) (Or.inr (by omega))
    obtain ⟨r1, r2, r3⟩ := readVar_sync e3 ((n + (c.B - n % c.B) - c.numVar) % c.numVar)
    obtain ⟨s1, s2⟩ := r3 q (by rw [hsame.dev]; exact q1)
    rw [s1, if_pos rfl, s2, q2, if_pos rfl]
    exact key _ _ (hsame.trans r1) r2 ⟨q, q1, q2⟩ (by rw [hsp]; omega) (by rw [hsp]; omega)
  · rw [if_neg hc]
    have h0m : b % c.numVar = 0 := Nat.mod_eq_zero_of_dvd b1
    obtain ⟨q, q1, q2⟩ := hgood 0 (by omega)
    have hsp : n + foundSpace c.numVar c.B n = b + c.numVar := by
      unfold foundSpace
      rcases Nat.lt_or_ge n c.numVar with h | h
      · have hb0 : b = 0 := by rw [← hb, Nat.div_eq_of_lt (by omega), Nat.zero_mul]
        rw [if_pos (by omega)]; omega
      · have hfull : n = b + c.numVar := by
          by_contra hne
          have hlt2 : n - b < c.numVar := by omega
          have hsome : ∃ q, v.dev.file (n - b) = some q := by
            obtain ⟨q, q1, -⟩ := hv.old (n - c.numVar) (by omega) (by omega)
            have hm : (n - c.numVar) % c.numVar = n - b := by
              rw [← Nat.mod_eq_sub_mod h]
              conv_lhs => rw [show n = b + (n - b) by omega]
              exact base_mod b1 hlt2
            rw [hm] at q1
            exact ⟨q, q1⟩
          obtain ⟨q, hq⟩ := hsome
          rcases e4 with ⟨r1, r2⟩ | ⟨r1, r2⟩
          · exact hc ⟨r2, hlt2⟩
          · rw [hsame.dev, hq] at r1; cases r1
        by_cases hle : n ≤ c.numVar
        · rw [if_pos hle]; omega
        · rw [if_neg hle, if_pos (by rw [hfull, Nat.add_mod_right]; exact h0m)]; omega
    have := key v2 b hsame e3 ⟨q, by rw [h0m]; exact q1, q2⟩ hsp (by omega)
    rw [h0m] at this
    exact this

end EDB
