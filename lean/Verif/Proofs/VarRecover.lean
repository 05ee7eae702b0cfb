import Verif.Model.VarRecover
import Verif.Proofs.VarCrash
import Verif.Proofs.Life

/-! Helper lemmas: opening an existing variable data file that has not wrapped. -/

namespace EDB

open Spec (Log VLog VOp VOut)

section
variable {c : Cfg} {lo K w : Nat} {d : Data} {v : Var}

theorem readVar_none (hs : VSync v) {ph : Nat} (h : v.dev.file ph = none) : readVar v ph = (v, false) := by
  unfold readVar
  by_cases hb : v.buffered = some ph
  · have := hs ph hb
    rw [h] at this
    cases this
  · rw [if_neg hb, h]

/-- The file consists of its first `w` pages, each with its number. -/
structure Plain (f : Nat → Option Page) (w : Nat) : Prop where
  pages : ∀ j, j < w → ∃ p, f j = some p ∧ pageId p = j
  rest : ∀ j, w ≤ j → f j = none

theorem followVar_ok (h32 : c.numVar < 2 ^ 32) (hw : w < c.numVar) : ∀ (n : Nat) (v : Var) (pos : Nat) (more : Bool), VSync v → Plain v.dev.file w →
    0 < pos → pos ≤ w → (pos < w → more = true ∧ v.dev.file pos = some v.rbuf) → (pos = w → more = false) → w ≤ pos + n →
    ∃ v', followVar c n v pos (pos - 1) more = (v', w, w - 1, false) ∧ VSame v v' ∧ VSync v' := by
  intro n
  induction n with
  | zero =>
    intro v pos more hs hp h0 h1 h2 h3 h4
    have : pos = w := by omega
    subst this
    refine ⟨v, ?_, rfl, hs⟩
    rw [followVar, h3 rfl]
  | succ n ih =>
    intro v pos more hs hp h0 h1 h2 h3 h4
    rcases Nat.lt_or_ge pos w with hlt | hge
    · obtain ⟨m1, m2⟩ := h2 hlt
      obtain ⟨p, p1, p2⟩ := hp.pages pos hlt
      rw [m2] at p1
      cases p1
      unfold followVar
      rw [if_pos ⟨m1, by omega⟩, if_pos (by
        rw [p2]
        refine ⟨Nat.mod_eq_of_lt (by omega), ?_⟩
        rw [show pos - 1 + 1 = pos by omega, Nat.mod_eq_of_lt (by omega)])]
      simp only
      obtain ⟨r1, r2, r3⟩ := readVar_sync hs (pos + 1)
      have hdev : (readVar v (pos + 1)).1.dev = v.dev := by rw [r1]
      have hid : pageId v.rbuf = pos + 1 - 1 := by omega
      obtain ⟨v', e1, e2, e3⟩ := ih (readVar v (pos + 1)).1 (pos + 1) (readVar v (pos + 1)).2 r2 (by rw [hdev]; exact hp) (by omega) (by omega)
        (fun h => by
          obtain ⟨q, q1, -⟩ := hp.pages (pos + 1) h
          obtain ⟨s1, s2⟩ := r3 q q1
          exact ⟨s1, by rw [hdev, s2]; exact q1⟩)
        (fun h => by rw [readVar_none hs (hp.rest _ (by omega))]) (by omega)
      rw [hid]
      refine ⟨v', e1, ?_, e3⟩
      unfold VSame at r1 e2 ⊢
      rw [e2, r1]
    · have : pos = w := by omega
      subst this
      refine ⟨v, ?_, rfl, hs⟩
      unfold followVar
      rw [h3 rfl, if_neg (by simp)]

/-- Opening the variable data file: nothing found. -/
theorem recoverVar_empty (hs : VSync v) (hp : Plain v.dev.file 0) : recoverVar c d v = (d, v, 0) := by
  unfold recoverVar
  rw [readVar_none hs (hp.rest 0 (le_refl _))]
  simp [probeVar]

/-- Opening a variable data file that has not wrapped. -/
theorem recoverVar_gen (hv : c.VFile) (hw0 : 0 < w) (hw : w < c.numVar) (hs : VSync v) (hp : Plain v.dev.file w)
    (hblank : w = 1 → ∀ p, v.dev.file 0 = some p → vkey c p ≠ 0) {d2 : Data} {m : Nat}
    (hmin : ∀ u, pageId u.rbuf = 0 → setMinRec c d u = (d2, { u with minRec := m }, true)) :
    ∃ v', recoverVar c d v = (d2,
      { v' with next := w, minRec := m, avail := c.numVar - w, loc := w * c.pageSize + c.vhdr }, 0) ∧
      VSame v v' ∧ VSync v' := by
  have hps := hv.ps
  have hcap := hv.cap4
  have h32 : c.numVar < 2 ^ 32 := lt_of_le_of_lt (Nat.le_mul_of_pos_right _ (by omega)) hv.mem
  -- the loop that finds the first page
  obtain ⟨v1, pos, b1, b2, b3, b4, b5, b6, b7⟩ : ∃ v1 pos, probeVar c 3 0 (readVar v 0).1 0 (readVar v 0).2 =
      ⟨v1, pos, some (pos - 1), (decide (pos < w))⟩ ∧ VSame v v1 ∧ VSync v1 ∧ 0 < pos ∧ pos ≤ w ∧ pos ≤ 2 ∧
      (pos < w → v1.dev.file pos = some v1.rbuf) := by
    obtain ⟨p, p1, p2⟩ := hp.pages 0 hw0
    obtain ⟨r1, r2, r3⟩ := readVar_sync hs 0
    obtain ⟨s1, s2⟩ := r3 p p1
    have hdev : (readVar v 0).1.dev = v.dev := by rw [r1]
    generalize (readVar v 0).1 = u at r1 r2 s2 hdev ⊢
    rw [s1]
    obtain ⟨t1, t2, t3⟩ := readVar_sync r2 1
    have hdev2 : (readVar u 1).1.dev = v.dev := by rw [t1]; exact hdev
    unfold probeVar
    rw [if_pos (by simp), if_pos (by rw [s2, p2]; simp), Nat.zero_add]
    simp only
    by_cases hk : leNat (rd u.rbuf 4 c.keySize) ≠ 0
    · rw [if_pos (Or.inr hk)]
      refine ⟨(readVar u 1).1, 1, ?_, r1.trans t1, t2, by omega, by omega, by omega, ?_⟩
      · rw [s2, p2]
        rcases Nat.lt_or_ge 1 w with h | h
        · obtain ⟨q, q1, -⟩ := hp.pages 1 h
          rw [(t3 q (by rw [hdev]; exact q1)).1]
          simp [h]
        · rw [readVar_none r2 (by rw [hdev]; exact hp.rest 1 (by omega))]
          simp [show ¬ 1 < w by omega]
      · intro h
        obtain ⟨q, q1, -⟩ := hp.pages 1 h
        rw [hdev2, (t3 q (by rw [hdev]; exact q1)).2]
        exact q1
    · rw [if_neg (by rw [s2, p2]; rw [s2] at hk; push Not at hk; simp [hk])]
      have hw1 : 1 < w := by
        by_contra hcon
        refine hblank (by omega) p p1 ?_
        rw [s2] at hk
        push Not at hk
        exact hk
      obtain ⟨q, q1, q2⟩ := hp.pages 1 hw1
      obtain ⟨z1, z2⟩ := t3 q (by rw [hdev]; exact q1)
      generalize (readVar u 1).1 = y at t1 t2 z2 hdev2 ⊢
      rw [z1]
      obtain ⟨x1, x2, x3⟩ := readVar_sync t2 2
      have hdev3 : (readVar y 2).1.dev = v.dev := by rw [x1]; exact hdev2
      unfold probeVar
      rw [if_pos (by simp), if_pos (by rw [z2, q2]; exact Nat.mod_eq_of_lt (by omega))]
      simp only
      rw [if_pos (Or.inl (by rw [z2, q2]; omega))]
      refine ⟨(readVar y 2).1, 2, ?_, (r1.trans t1).trans x1, x2, by omega, by omega, by omega, ?_⟩
      · rw [z2, q2]
        rcases Nat.lt_or_ge 2 w with h | h
        · obtain ⟨q, q1, -⟩ := hp.pages 2 h
          rw [(x3 q (by rw [hdev2]; exact q1)).1]
          simp [h]
        · rw [readVar_none t2 (by rw [hdev2]; exact hp.rest 2 (by omega))]
          simp [show ¬ 2 < w by omega]
      · intro h
        obtain ⟨q, q1, -⟩ := hp.pages 2 h
        rw [hdev3, (x3 q (by rw [hdev2]; exact q1)).2]
        exact q1
  have hdev1 : v1.dev = v.dev := by rw [b2]
  obtain ⟨v2, e1, e2, e3⟩ := followVar_ok h32 hw c.numVar v1 pos (decide (pos < w)) b3 (by rw [hdev1]; exact hp) b4 b5
    (fun h => ⟨by simp [h], b7 h⟩) (fun h => by simp [h]) (by omega)
  have hdev2 : v2.dev = v.dev := by rw [e2]; exact hdev1
  obtain ⟨p, p1, p2⟩ := hp.pages 0 hw0
  have hs3 : VSync { v2 with next := w } := e3
  obtain ⟨r1, r2, r3⟩ := readVar_sync hs3 0
  obtain ⟨s1, s2⟩ := r3 p (by show v2.dev.file 0 = _; rw [hdev2]; exact p1)
  refine ⟨{ (readVar { v2 with next := w } 0).1 with next := v.next }, ?_, ?_, ?_⟩
  · unfold recoverVar
    simp only
    rw [b1]
    simp only
    rw [e1]
    simp only
    unfold finishVar
    rw [if_neg (by simp)]
    unfold setVarCounters
    simp only
    rw [show w - 1 + 1 = w by omega, Nat.mod_eq_of_lt (show w < 2 ^ 32 by omega), s1, if_pos rfl]
    have hid : pageId (readVar { v2 with next := w } 0).1.rbuf = 0 := by rw [s2]; exact p2
    have hnx : (readVar { v2 with next := w } 0).1.next = w := by rw [r1]
    rw [hmin _ hid]
    simp only [if_true]
    rw [hid, hnx, Nat.mod_eq_of_lt hw]
    have hu : u32 (↑c.numVar + ↑(0 : Nat) - ↑(w - 1) - 1) = c.numVar - w := by
      unfold u32
      omega
    rw [hu]
  · unfold VSame
    have h1 : VSame v v2 := b2.trans e2
    unfold VSame at h1 r1
    rw [r1]
    simp only
    rw [h1]
  · have hd : (readVar { v2 with next := w } 0).1.dev = v2.dev := by rw [r1]
    exact r2

/-- Opening a variable data file that has not wrapped, without record-level consistency. -/
theorem recoverVar_ok (hv : c.VFile) (hrlc : c.rlc = false) (hw0 : 0 < w) (hw : w < c.numVar) (hs : VSync v) (hp : Plain v.dev.file w)
    (hblank : w = 1 → ∀ p, v.dev.file 0 = some p → vkey c p ≠ 0) {q : Page} (F : Fresh d) (hq : d.dev.file (d.min % c.N) = some q) :
    ∃ v', recoverVar c d v = ((readPage d (d.min % c.N)).1,
      { v' with next := w, minRec := pageMinKey c q, avail := c.numVar - w, loc := w * c.pageSize + c.vhdr }, 0) ∧
      VSame v v' ∧ VSync v' := by
  refine recoverVar_gen hv hw0 hw hs hp hblank fun u hid => ?_
  obtain ⟨f1, f2, f3, f4⟩ := readPage_some F hq
  unfold setMinRec
  rw [if_pos hid, if_neg (by simp [hrlc])]
  simp only
  rw [f1, f2, if_pos rfl]

end

end EDB
