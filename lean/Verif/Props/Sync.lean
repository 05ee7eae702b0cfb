import Verif.Proofs.Sync
import Verif.Proofs.DemoVar
import Verif.Props.VarIndex

/-!
# Property C78: after a successful `embedDBFlush` everything written is on the medium

`Synced` counts the operations of each file's log that were made before the last successful `fileInterface->flush` of the file; everything
is on the medium when that is the length of the log.
-/

namespace EDB

variable {c : Cfg}

/-- Records have the size of the table, and `fileInterface->flush` of the data file and of the index file succeeds. -/
def SyOp.Good (c : Cfg) : SyOp → Prop
  | .put _ a => a.length = c.dataSize
  | .putVar _ a _ _ => a.length = c.dataSize
  | .flush fl => fl .data = true ∧ (c.useIndex = true → fl .idx = true)
  | .get _ => True
  | .getVar _ _ => True
  | .next _ => True
  | .nextVar _ _ => True
  | .stream _ _ => True

theorem SyncInv.put (hL : c.Layout) (h16 : c.maxRec ≤ 65535) {d : Data} {x : Idx} {s s' : Synced} {key : Nat} {data : List Byte} {loc : Nat}
    {r : Data × Idx × Int × Bool} (I : SyncInv c d x s) (hd : data.length = c.dataSize) (h : putX c d x key data loc = .ok r)
    (hs : s'.data = s.data ∧ s'.idx = s.idx) : SyncInv c r.1 r.2.1 s' := by
  intro h0
  rcases putX_count hL h16 hd h with h1 | ⟨h1, h2, h3⟩
  · exact absurd h0 h1
  · rw [h1, h3, hs.1, hs.2]
    exact I (by rw [← h2]; exact h0)

theorem SyncInv.same {d d' : Data} {x x' : Idx} {s s' : Synced} (I : SyncInv c d x s) (S : SameButCache d d') (X : SameIdx x x')
    (hs : s'.data = s.data ∧ s'.idx = s.idx) : SyncInv c d' x' s' := by
  intro e
  rw [S.dev, X.dev, hs.1, hs.2]
  exact I (by rw [← S.wbuf]; exact e)

theorem stepSync_inv (hL : c.Layout) (h16 : c.maxRec ≤ 65535) {d : Data} {x : Idx} {v : Var} {s : Synced} {op : SyOp}
    {r : Data × Idx × Var × Synced × Int} (I : SyncInv c d x s) (g : op.Good c) (h : stepSync c d x v s op = .ok r) :
    SyncInv c r.1 r.2.1 r.2.2.2.1 ∧ ((∃ fl, op = .flush fl) → r.2.2.2.2 = 0 →
      r.2.2.2.1.data = r.1.dev.log.length ∧ (c.useIndex = true → r.2.2.2.1.idx = r.2.1.dev.log.length)) := by
  cases op with
  | put k a =>
    refine ⟨?_, fun ⟨_, e⟩ => by cases e⟩
    unfold stepSync putPlain at h
    obtain ⟨⟨d1, x1, v1, r1⟩, h1, h⟩ := Res.bind_eq_ok h
    obtain ⟨⟨d2, x2, r2, w2⟩, h2, h1⟩ := Res.bind_eq_ok h1
    cases h1; cases h
    have := I.put hL h16 g h2 (s' := s) ⟨rfl, rfl⟩
    exact this
  | putVar k a b fl =>
    refine ⟨?_, fun ⟨_, e⟩ => by cases e⟩
    unfold stepSync at h
    obtain ⟨s1, h0, h⟩ := Res.bind_eq_ok h
    obtain ⟨⟨d1, x1, v1, r1⟩, h1, h⟩ := Res.bind_eq_ok h
    cases h
    have hs := syncPut_rest h0
    unfold putVar at h1
    by_cases hu : c.useVdata = true
    · simp only [hu, if_true] at h1
      cases b with
      | none =>
        obtain ⟨⟨d2, x2, r2, w2⟩, h2, h1⟩ := Res.bind_eq_ok h1
        cases h1
        have := I.put hL h16 g h2 hs
        exact this
      | some bs =>
        obtain ⟨⟨d2, x2, r2, w2⟩, h2, h1⟩ := Res.bind_eq_ok h1
        have := I.put hL h16 g h2 hs
        simp only at h1
        by_cases hr : r2 ≠ 0
        · rw [if_pos hr] at h1
          cases h1
          exact this
        · rw [if_neg hr] at h1
          obtain ⟨v3, -, h1⟩ := Res.bind_eq_ok h1
          cases h1
          exact this
    · simp only [hu] at h1
      cases h1
      intro e
      rw [hs.1, hs.2]
      exact I e
  | flush fl =>
    unfold stepSync at h
    obtain ⟨s1, h0, h⟩ := Res.bind_eq_ok h
    by_cases hu : c.useVdata = true
    · simp only [hu, if_true] at h
      obtain ⟨⟨d1, x1, v1, r1⟩, h1, h⟩ := Res.bind_eq_ok h
      cases h
      unfold flushV at h1
      obtain ⟨⟨d2, x2, r2, w2⟩, h2, h1⟩ := Res.bind_eq_ok h1
      have F := flushX_sync g.1 g.2 I h0 h2
      simp only at h1 F
      by_cases hr : r2 = 0 ∧ w2 = true
      · rw [if_pos hr] at h1
        cases h1
        exact ⟨fun _ => (F.1 hr.1).2, fun _ _ => (F.1 hr.1).2⟩
      · rw [if_neg hr] at h1
        cases h1
        refine ⟨fun e => ?_, fun _ e => (F.1 e).2⟩
        exact Classical.byCases (fun e2 => (F.1 e2).2) (fun e2 => absurd e (F.2 e2))
    · simp only [hu] at h
      obtain ⟨⟨d2, x2, r2, w2⟩, h2, h⟩ := Res.bind_eq_ok h
      cases h
      have F := flushX_sync g.1 g.2 I h0 h2
      simp only at F
      refine ⟨fun e => ?_, fun _ e => (F.1 e).2⟩
      by_cases e2 : r2 = 0
      · exact (F.1 e2).2
      · exact absurd e (F.2 e2)
  | get k =>
    refine ⟨?_, fun ⟨_, e⟩ => by cases e⟩
    unfold stepSync at h
    obtain ⟨⟨d1, r1, o1⟩, h1, h⟩ := Res.bind_eq_ok h
    cases h
    have S := get_same h1
    intro e
    show _ = d1.dev.log.length ∧ _
    rw [S.dev]
    exact I (by rw [← S.wbuf]; exact e)
  | getVar k fl =>
    refine ⟨?_, fun ⟨_, e⟩ => by cases e⟩
    unfold stepSync at h
    obtain ⟨s1, h0, h⟩ := Res.bind_eq_ok h
    have hs := syncGet_rest h0
    obtain ⟨⟨d1, v1, r1, o1, st1⟩, h1, h⟩ := Res.bind_eq_ok h
    obtain ⟨⟨v2, b2⟩, -, h⟩ := Res.bind_eq_ok h
    cases h
    have S1 := getVar_dev h1
    have S2 := getVar_keepsBuf h1
    intro e
    show s1.data = d1.dev.log.length ∧ (_ → s1.idx = _)
    rw [S1, hs.1, hs.2]
    exact I (by rw [← S2]; exact e)
  | next it =>
    refine ⟨?_, fun ⟨_, e⟩ => by cases e⟩
    unfold stepSync at h
    obtain ⟨⟨d1, x1, it1, o1⟩, h1, h⟩ := Res.bind_eq_ok h
    cases h
    exact I.same (nextLoop_same _ _ _ _ _ _ _ _ h1) (nextLoop_sameIdx _ _ _ _ _ _ _ _ h1) ⟨rfl, rfl⟩
  | nextVar it fl =>
    refine ⟨?_, fun ⟨_, e⟩ => by cases e⟩
    unfold stepSync at h
    obtain ⟨s1, h0, h⟩ := Res.bind_eq_ok h
    have hs := syncNext_rest h0
    obtain ⟨⟨d1, x1, v1, it1, o1⟩, h1, h⟩ := Res.bind_eq_ok h
    cases h
    unfold nextVar at h1
    by_cases hu : c.useVdata = true
    · rw [if_pos hu] at h1
      obtain ⟨⟨d2, x2, it2, o2⟩, h2, h1⟩ := Res.bind_eq_ok h1
      have J := I.same (nextLoop_same _ _ _ _ _ _ _ _ h2) (nextLoop_sameIdx _ _ _ _ _ _ _ _ h2) hs
      cases o2 with
      | none => cases h1; exact J
      | some rec =>
        simp only at h1
        obtain ⟨⟨v3, s3, st3⟩, -, h1⟩ := Res.bind_eq_ok h1
        cases h1
        intro e
        have e' : pageCount d2.wbuf = 0 := by
          simp only at e
          split_ifs at e <;> exact e
        have := J e'
        refine ⟨?_, this.2⟩
        rw [this.1]
        simp only
        split_ifs <;> rfl
    · rw [if_neg hu] at h1
      cases h1
      intro e
      rw [hs.1, hs.2]
      exact I e
  | stream st len =>
    refine ⟨?_, fun ⟨_, e⟩ => by cases e⟩
    unfold stepSync at h
    obtain ⟨⟨v1, st1, bs⟩, -, h⟩ := Res.bind_eq_ok h
    cases h
    exact I

theorem runSync_inv (hL : c.Layout) (h16 : c.maxRec ≤ 65535) (ops : List SyOp) : ∀ {d : Data} {x : Idx} {v : Var} {s : Synced}
    {r : Data × Idx × Var × Synced}, SyncInv c d x s → (∀ op ∈ ops, op.Good c) → runSync c d x v s ops = .ok r → SyncInv c r.1 r.2.1 r.2.2.2 := by
  induction ops with
  | nil => intro d x v s r I _ h; cases h; exact I
  | cons op ops ih =>
    intro d x v s r I g h
    obtain ⟨⟨d1, x1, v1, s1, r1⟩, h1, h⟩ := Res.bind_eq_ok h
    exact ih (stepSync_inv hL h16 I (g op List.mem_cons_self) h1).1 (fun o ho => g o (List.mem_cons_of_mem _ ho)) h

/-- The table has just been opened, and what its files hold is taken to be on the medium. -/
def syncOpened (d : Data) (x : Idx) (v : Var) : Synced := ⟨d.dev.log.length, x.dev.log.length, v.dev.log.length⟩

/-- C78, data file and index file: after any operations on a table opened in any state, with or without record-level consistency and
whatever writes and erases fail, an `embedDBFlush` that returns 0 leaves every page of both files on the medium (`_partial`: if no
`fileInterface->flush` fails, `C78_false_ignored`; for the variable data file see `C78_var_partial`). -/
theorem C78_flush_partial (hL : c.Layout) (h16 : c.maxRec ≤ 65535) (d0 : Data) (x0 : Idx) (v0 : Var)
    (ops : List SyOp) (hg : ∀ op ∈ ops, op.Good c) (fl : StFile → Bool) (hf : (SyOp.flush fl).Good c)
    {d d' : Data} {x x' : Idx} {v v' : Var} {s s' : Synced} (h : runSync c d0 x0 v0 (syncOpened d0 x0 v0) ops = .ok (d, x, v, s))
    (h' : stepSync c d x v s (.flush fl) = .ok (d', x', v', s', 0)) :
    s'.data = d'.dev.log.length ∧ (c.useIndex = true → s'.idx = x'.dev.log.length) := by
  have I0 : SyncInv c d0 x0 (syncOpened d0 x0 v0) := fun _ => ⟨rfl, fun _ => rfl⟩
  exact (stepSync_inv hL h16 (runSync_inv hL h16 ops I0 hg h) hf h').2 ⟨fl, rfl⟩ rfl

/-- C78, variable data file: exactly when an `embedDBFlush` that returns 0 leaves all of it on the medium.  Either it was there already,
or there is a record to be written and the variable write buffer holds something (`_partial`: nothing is flushed if the variable write
buffer is empty, `C78_false_var`, `C78_false_var_full`). -/
theorem C78_var_partial (hu : c.useVdata = true) (fl : StFile → Bool) (hf : fl .var = true) {d d' : Data} {x x' : Idx} {v v' : Var}
    {s s' : Synced} (h' : stepSync c d x v s (.flush fl) = .ok (d', x', v', s', 0)) :
    s'.var = v'.dev.log.length ↔ s.var = v.dev.log.length ∨ (pageCount d.wbuf ≠ 0 ∧ v.loc % c.pageSize ≠ c.vhdr) := by
  unfold stepSync at h'
  obtain ⟨s1, h0, h⟩ := Res.bind_eq_ok h'
  simp only [hu, if_true] at h
  obtain ⟨⟨d1, x1, v1, r1⟩, h1, h⟩ := Res.bind_eq_ok h
  cases h
  unfold flushV at h1
  obtain ⟨⟨d2, x2, r2, w2⟩, h2, h1⟩ := Res.bind_eq_ok h1
  simp only at h1
  unfold syncFlush at h0
  unfold flushX at h2
  have key : ∀ t : Synced, t.var = s.var → (flushVar c v).2 = 0 →
      ((syncVar c fl v t).var = (flushVar c v).1.dev.log.length ↔ s.var = v.dev.log.length ∨ v.loc % c.pageSize ≠ c.vhdr) := by
    intro t ht h3
    unfold flushVar at h3 ⊢
    unfold syncVar
    by_cases hl : v.loc % c.pageSize = c.vhdr
    · rw [if_pos hl, if_pos hl, ht]; simp [hl]
    · rw [if_neg hl] at h3 ⊢
      rw [if_neg hl]
      rcases hw : writeVar c v with ⟨v3, _ | n⟩
      · rw [hw] at h3; exact absurd h3 (by simp)
      · simp [hf, hl]
  by_cases hc : pageCount d.wbuf < 1
  · rw [if_pos hc] at h0 h2
    cases h0; cases h2
    simp only [Bool.false_eq_true, and_false, if_false] at h1
    cases h1
    have : pageCount d.wbuf = 0 := by omega
    simp [this]
  · rw [if_neg hc] at h0 h2
    have hc' : pageCount d.wbuf ≠ 0 := by omega
    obtain ⟨⟨d3, pn⟩, e1, h0⟩ := Res.bind_eq_ok h0
    obtain ⟨⟨d3', pn'⟩, e2, h2⟩ := Res.bind_eq_ok h2
    rw [e1] at e2
    cases e2
    cases pn with
    | none => cases h2; simp at h1
    | some n =>
      simp only [hu, if_true] at h0 h2
      by_cases hx : c.useIndex = true
      · simp only [hx, if_true] at h0 h2
        obtain ⟨⟨x3, ok⟩, e3, h0⟩ := Res.bind_eq_ok h0
        obtain ⟨⟨x3', ok'⟩, e4, h2⟩ := Res.bind_eq_ok h2
        rw [e3] at e4
        cases e4
        cases ok with
        | false => cases h2; simp at h1
        | true =>
          simp only [if_true] at h0 h2
          cases h2
          simp only [and_self, if_true] at h1
          have h4 : flushVar c v = (v1, 0) := by
            simp only [Res.ok.injEq, Prod.mk.injEq] at h1
            exact Prod.ext h1.2.2.1 h1.2.2.2
          have h3 : (flushVar c v).2 = 0 := by rw [h4]
          have h5 : v1 = (flushVar c v).1 := by rw [h4]
          subst h5
          cases h0
          rw [key _ (by split_ifs <;> rfl) h3]
          simp [hc']
      · simp only [hx] at h0 h2
        cases h2
        simp only [and_self, if_true] at h1
        have h4 : flushVar c v = (v1, 0) := by
          simp only [Res.ok.injEq, Prod.mk.injEq] at h1
          exact Prod.ext h1.2.2.1 h1.2.2.2
        have h3 : (flushVar c v).2 = 0 := by rw [h4]
        have h5 : v1 = (flushVar c v).1 := by rw [h4]
        subst h5
        cases h0
        rw [key _ (by split_ifs <;> rfl) h3]
        simp [hc']

/-- every `fileInterface->flush` succeeds -/
def okFl : StFile → Bool := fun _ => true

/-- Nothing written yet. -/
def sync0 : Synced := ⟨0, 0, 0⟩

/-- Three records with variable data in a table with an index: the flush returns 0 and leaves two data pages and everything else on the
medium, where nothing was before. -/
example : SyOp.Good demoVI (.putVar 1 (dat 1) (some (blob 5 10)) okFl) ∧ SyOp.Good demoVI (.flush okFl) ∧
    ((runSync demoVI (Data.fresh demoVI (fun _ => 0) (fun _ => (0, 0))) (Idx.fresh demoVI (fun _ => 0)) (Var.fresh demoVI (fun _ => 0) false) sync0
      [.putVar 1 (dat 1) (some (blob 5 10)) okFl, .putVar 2 (dat 2) (some (blob 5 20)) okFl, .putVar 3 (dat 3) (some (blob 5 30)) okFl]).bind
      fun (d, x, v, s) => (stepSync demoVI d x v s (.flush okFl)).bind fun (d', x', v', s', r) => .ok (s, v.dev.log.length, s', r,
        d'.dev.log.length, x'.dev.log.length, v'.dev.log.length)).check
      (fun t => decide (t = (sync0, 1, ⟨2, 1, 2⟩, 0, 2, 1, 2))) = true := by
  refine ⟨rfl, ⟨rfl, fun _ => rfl⟩, ?_⟩
  decide +kernel

end EDB
