import Verif.Proofs.RlcReopen
import Verif.Proofs.Always

/-! Helper lemmas: everything that ever happens to a file with record-level consistency. -/

namespace EDB

open Spec (Log Op Out Attempt MayHold CutPut KeepsPermanent)

/-! ### Reads -/

section
variable {c : Cfg} {lo K a P : Nat} {L : Log}

/-- Lookups and scans of a represented log. -/
theorem Sim.reads (hc : CmpOk c.cmpKey K) (hN : 0 < c.N) (hB : Bounds c lo K P) (hbs : c.binSearch = false) (h255 : c.maxRec ≤ 255)
    (hcap : Capped c.maxRec L) {m : Nat} :
    ∀ (ops : List Op) (d : Data) (x : Idx), Sim c lo K a d L → d.min = m → d.next ≤ P → Client c lo K ops → (∀ op ∈ ops, op.isRead) →
      Spec.Run (fun _ => True) (fun l => l.live m) c.maxRec c.cmpData L (history c d x ops) := by
  intro ops
  induction ops with
  | nil => intro d x _ _ _ _ _; exact trivial
  | cons op ops ih =>
    intro d x S hm hP C hr
    have hr' : ∀ op ∈ ops, op.isRead := fun o ho => hr o (by simp [ho])
    cases op with
    | put k v => exact absurd (hr _ List.mem_cons_self) (by simp [Op.isRead])
    | flush => exact absurd (hr _ List.mem_cons_self) (by simp [Op.isRead])
    | get k =>
      obtain ⟨d', code, out, h1, h2, h3, h4⟩ := get_ok hc hN hB hbs (C.get k (by simp)) S hP (by
        intro i hi
        have := hcap.2
        omega)
      have e : step c d x (.get k) = .ok (d', x, Spec.answer (L.live d.min) k) := by
        rw [← answer_of h4]
        simp only [step]; rw [h1, Res.ok_bind]
      unfold history
      simp only [e]
      exact ⟨by rw [hm], ih d' x h3 (by rw [h2.min, hm]) (by rw [h2.next]; exact hP) C.tail hr'⟩
    | scan q =>
      obtain ⟨hq, hbm⟩ := C.scan q (by simp)
      obtain ⟨d', h1, h2, h3⟩ := scanAll_ok hc hN hB hbs hbm S hP hcap x hq
      have e : step c d x (.scan q) = .ok (d', x, .rows (Spec.scan c.cmpData q (L.live d.min))) := by
        simp only [step]; rw [h1, Res.ok_bind]
      unfold history
      simp only [e]
      exact ⟨by rw [hm], ih d' x h3 (by rw [h2.min, hm]) (by rw [h2.next]; exact hP) C.tail hr'⟩

theorem nextLoop_zero {d : Data} (h0 : d.next = 0) : ∀ (f : Nat) (x : Idx) (it : Iter) {d1 : Data} {x1 : Idx} {it1 : Iter}
    {o : Option (Nat × List Byte)}, nextLoop c f (clr d) x it = .ok (d1, x1, it1, o) →
      d1 = clr d ∧ nextLoop c f d x it = .ok (d, x1, it1, o) := by
  intro f
  induction f with
  | zero => intro x it d1 x1 it1 o h; simp [nextLoop] at h
  | succ f ih =>
    intro x it d1 x1 it1 o h
    unfold nextLoop at h ⊢
    have hn : (clr d).next = 0 := h0
    rw [hn] at h
    rw [h0]
    by_cases hp : it.page > 0
    · rw [if_pos hp] at h ⊢
      cases h
      exact ⟨rfl, rfl⟩
    · rw [if_neg hp] at h ⊢
      obtain ⟨⟨x2, sk⟩, h2, h⟩ := Res.bind_eq_ok h
      rw [h2, Res.ok_bind]
      simp only at h ⊢
      cases sk with
      | none =>
        cases h
        exact ⟨rfl, rfl⟩
      | some b =>
        cases b with
        | true => exact ih _ _ h
        | false =>
          have hp0 : it.page = 0 := by omega
          simp only [hp0, if_true, hn, h0] at h ⊢
          have hw : (clr d).wbuf = d.wbuf := rfl
          rw [hw] at h
          split at h
          · exact ih _ _ h
          · cases h
            exact ⟨rfl, rfl⟩

theorem collect_zero {d : Data} (h0 : d.next = 0) : ∀ (f : Nat) (x : Idx) (it : Iter) {d1 : Data} {x1 : Idx} {it1 : Iter}
    {rs : List (Nat × List Byte)}, collect c f (clr d) x it = .ok (d1, x1, it1, rs) →
      d1 = clr d ∧ collect c f d x it = .ok (d, x1, it1, rs) := by
  intro f
  induction f with
  | zero => intro x it d1 x1 it1 o h; simp [collect] at h
  | succ f ih =>
    intro x it d1 x1 it1 rs h
    unfold collect at h ⊢
    obtain ⟨⟨d2, x2, it2, o⟩, h2, h⟩ := Res.bind_eq_ok h
    obtain ⟨e1, e2⟩ := nextLoop_zero h0 _ _ _ h2
    have e3 : next c d x it = .ok (d, x2, it2, o) := e2
    rw [e3, Res.ok_bind]
    simp only at h ⊢
    subst e1
    cases o with
    | none => cases h; exact ⟨rfl, rfl⟩
    | some r =>
      obtain ⟨⟨d3, x3, it3, rs3⟩, h3, h⟩ := Res.bind_eq_ok h
      obtain ⟨f1, f2⟩ := ih _ _ h3
      simp only [f2, Res.ok_bind] at h ⊢
      cases h
      exact ⟨f1, rfl⟩

/-- Reads do not depend on the read cache as long as no page is stored. -/
theorem history_zero {d : Data} (h0 : d.next = 0) : ∀ (ops : List Op) (x : Idx), (∀ op ∈ ops, op.isRead) →
    (∀ p ∈ history c (clr d) x ops, p.2 ≠ none) → history c d x ops = history c (clr d) x ops := by
  intro ops
  induction ops with
  | nil => intro x _ _; rfl
  | cons op ops ih =>
    intro x hr hne
    have hr' : ∀ op ∈ ops, op.isRead := fun o ho => hr o (by simp [ho])
    have key : ∀ d1 x1 o, step c (clr d) x op = .ok (d1, x1, o) → d1 = clr d ∧ step c d x op = .ok (d, x1, o) := by
      intro d1 x1 o h
      cases op with
      | put k v => exact absurd (hr _ List.mem_cons_self) (by simp [Op.isRead])
      | flush => exact absurd (hr _ List.mem_cons_self) (by simp [Op.isRead])
      | get k =>
        simp only [step] at h ⊢
        obtain ⟨⟨d2, r, out⟩, h2, h⟩ := Res.bind_eq_ok h
        unfold get at h2 ⊢
        have hn : (clr d).next = 0 := h0
        rw [if_pos hn] at h2
        rw [if_pos h0]
        obtain ⟨⟨r', out'⟩, h3, h2⟩ := Res.bind_eq_ok h2
        have hw : (clr d).wbuf = d.wbuf := rfl
        rw [hw] at h3
        rw [h3]
        cases h2
        cases h
        exact ⟨rfl, rfl⟩
      | scan q =>
        simp only [step] at h ⊢
        obtain ⟨⟨d2, x2, rs⟩, h2, h⟩ := Res.bind_eq_ok h
        unfold scanAll at h2 ⊢
        obtain ⟨it, h3, h2⟩ := Res.bind_eq_ok h2
        have h3' : initIter c d q.minKey q.maxKey q.minData q.maxData = .ok it := h3
        rw [h3', Res.ok_bind]
        obtain ⟨⟨d4, x4, it4, rs4⟩, h4, h2⟩ := Res.bind_eq_ok h2
        obtain ⟨e1, e2⟩ := collect_zero h0 _ _ _ h4
        have e2' : collect c ((d.next + 1) * c.maxRec + 1) d x it = .ok (d, x4, it4, rs4) := e2
        rw [e2']
        cases h2
        cases h
        exact ⟨e1, rfl⟩
    unfold history at hne ⊢
    cases hs : step c (clr d) x op with
    | ok y =>
      obtain ⟨d1, x1, o⟩ := y
      obtain ⟨k1, k2⟩ := key _ _ _ hs
      rw [hs] at hne
      rw [k2]
      simp only [k1] at hne ⊢
      rw [ih x1 hr' (fun p hp => hne p (by simp [hp]))]
    | ub => rw [hs] at hne; exact absurd rfl (hne _ List.mem_cons_self)
    | fuel => rw [hs] at hne; exact absurd rfl (hne _ List.mem_cons_self)

theorem run_some {limit : Log → Prop} {kept : Log → List Spec.Rec} {cap : Nat} {cmp : List UInt8 → List UInt8 → Int} :
    ∀ (h : Spec.History) (L : Log), Spec.Run limit kept cap cmp L h → (∀ p ∈ h, p.1.isRead) → ∀ p ∈ h, p.2 ≠ none := by
  intro h
  induction h with
  | nil => intro L _ _ p hp; cases hp
  | cons y t ih =>
    intro L r hr p hp
    obtain ⟨op, o⟩ := y
    have hr' : ∀ p ∈ t, p.1.isRead := fun o ho => hr o (by simp [ho])
    cases op with
    | put k v => exact absurd (hr _ List.mem_cons_self) (by simp [Op.isRead])
    | flush => exact absurd (hr _ List.mem_cons_self) (by simp [Op.isRead])
    | get k =>
      rcases List.mem_cons.mp hp with h | h
      · rw [h]; simp only [r.1]; simp
      · exact ih _ r.2 hr' p h
    | scan k =>
      rcases List.mem_cons.mp hp with h | h
      · rw [h]; simp only [r.1]; simp
      · exact ih _ r.2 hr' p h

theorem history_ops : ∀ (ops : List Op) (d : Data) (x : Idx), ∀ p ∈ history c d x ops, p.1 ∈ ops := by
  intro ops
  induction ops with
  | nil => intro d x p hp; cases hp
  | cons op ops ih =>
    intro d x p hp
    unfold history at hp
    split at hp
    · rcases List.mem_cons.mp hp with h | h
      · rw [h]; simp
      · exact List.mem_cons_of_mem _ (ih _ _ p h)
    · rw [List.mem_singleton.mp hp]; simp

end

/-! ### What may be held -/

section
variable {cap : Nat} {H : List Attempt} {L L' : Log}

theorem tried_append (H G : List Attempt) : Spec.tried (H ++ G) = Spec.tried H ++ Spec.tried G := by
  induction H with
  | nil => rfl
  | cons h t ih => cases h <;> simp [Spec.tried, ih]

theorem CutPut.all {r : Spec.Rec} (h : CutPut cap L r L') : ∀ x ∈ L'.all, x ∈ L.all ∨ x = r := by
  intro x hx
  cases h with
  | before => exact Or.inl hx
  | full h =>
    left
    simpa [Log.all] using hx
  | after =>
    rw [Log_put_all] at hx
    rcases List.mem_append.mp hx with h | h
    · exact Or.inl h
    · exact Or.inr (List.mem_singleton.mp h)

theorem mayHold_tried (h : MayHold cap H L) : ∀ r ∈ L.all, r ∈ Spec.tried H := by
  induction h with
  | nil => intro r hr; simp [Log.all, Log.empty] at hr
  | @put H L h r ih =>
    intro x hx
    rw [tried_append]
    rw [Log_put_all] at hx
    rcases List.mem_append.mp hx with h | h
    · exact List.mem_append_left _ (ih x h)
    · rw [List.mem_singleton.mp h]; simp [Spec.tried]
  | @flush H L h ih =>
    intro x hx
    rw [Log_flush_all] at hx
    rw [tried_append]
    exact List.mem_append_left _ (ih x hx)
  | @putCut H L L' h r e ih =>
    intro x hx
    rw [tried_append]
    rcases CutPut.all e x hx with h | h
    · exact List.mem_append_left _ (ih x h)
    · rw [h]; simp [Spec.tried]
  | @flushCut H L L' h e ih =>
    intro x hx
    rw [tried_append]
    refine List.mem_append_left _ (ih x ?_)
    rcases e with e | e
    · rw [← e]; exact hx
    · rw [e, Log_flush_all] at hx; exact hx

end

/-! ### The invariant -/

/-- The file is what the storage operations made it, apart from blank pages where they made none, and they spared the retained
permanent pages. -/
structure RlcKept (c : Cfg) (P : Nat) (L : Log) (v : Dev) : Prop where
  image : ∀ ph, v.file ph = Spec.image c.eraseFx v.log ph ∨
    (Spec.image c.eraseFx v.log ph = none ∧ ∃ q, v.file ph = some q ∧ Blank P q)
  keeps : ∀ m, KeepsPermanent c.N c.B L.pages.length m → KeepsPermanent c.N c.B 0 (v.log ++ m)
  writes : ∀ ph q, Ev.write ph q ∈ v.log → ph < c.N ∧ pageId q < P ∧ Page.within q c.pageSize

/-- See `Rlc`. -/
def RlcInv (c : Cfg) (lo K P : Nat) (H : List Attempt) : Machine → Prop
  | .on d => ∃ L ps fr t, RTab c lo K P ps fr t d L ∧ MayHold c.maxRec H L ∧ RlcKept c P L d.dev
  | .off v => ∃ L, StoredR c P L v.file ∧ OrderedLog c lo K L ∧ MayHold c.maxRec H L ∧ RlcKept c P L v

section
variable {c : Cfg} {lo K P fr : Nat} {ps : List Page} {t : Option Page} {H : List Attempt} {L L' : Log} {d d' : Data}

theorem RTab.ordered (T : RTab c lo K P ps fr t d L) : OrderedLog c lo K L := by
  obtain ⟨a, _, S⟩ := T.sim
  exact ⟨S.full, S.sorted, S.bound, T.cap⟩

/-- Storage operations do the same to both files. -/
theorem image_run (hE : RlcEraser c P) : ∀ (evs : List Ev) {f g : Nat → Option Page},
    (∀ ph, f ph = g ph ∨ (g ph = none ∧ ∃ q, f ph = some q ∧ Blank P q)) →
    ∀ ph, evs.foldl (Spec.applyEv c.eraseFx) f ph = evs.foldl (Spec.applyEv c.eraseFx) g ph ∨
      (evs.foldl (Spec.applyEv c.eraseFx) g ph = none ∧ ∃ q, evs.foldl (Spec.applyEv c.eraseFx) f ph = some q ∧ Blank P q) := by
  intro evs
  induction evs with
  | nil => intro f g h; exact h
  | cons e t ih =>
    intro f g h
    simp only [List.foldl_cons]
    refine ih ?_
    intro ph
    cases e with
    | write i q =>
      simp only [Spec.applyEv]
      by_cases hi : ph = i
      · rw [if_pos hi, if_pos hi]; exact Or.inl rfl
      · rw [if_neg hi, if_neg hi]; exact h ph
    | erase lo hi =>
      simp only [Spec.applyEv]
      by_cases hi : lo ≤ ph ∧ ph < hi
      · rw [if_pos hi, if_pos hi]
        rcases h ph with e | ⟨e, q, e1, e2⟩
        · rw [e]; exact Or.inl rfl
        · rw [e, e1, hE.none]
          right
          refine ⟨rfl, ?_⟩
          rcases hE.some with h1 | h1
          · exact ⟨q, h1 q, e2⟩
          · exact h1 q
      · rw [if_neg hi, if_neg hi]; exact h ph

theorem RlcKept.run (hE : RlcEraser c P) {v : Dev} {evs : List Ev} {R : Log → Prop} {f f' : Nat → Option Page} (k : RlcKept c P L v)
    (T : Trail c P R L f evs L' f') : RlcKept c P L' (devRun c v evs) := by
  have h := T.keeps
  refine ⟨?_, ?_, ?_⟩
  rotate_right
  · intro ph q hq
    rcases List.mem_append.mp hq with h | h
    · exact k.writes ph q h
    · exact T.writes ph q h
  · show ∀ ph, evs.foldl _ v.file ph = Spec.image c.eraseFx (v.log ++ evs) ph ∨ (Spec.image c.eraseFx (v.log ++ evs) ph = none ∧ _)
    unfold Spec.image
    rw [List.foldl_append]
    exact image_run hE evs k.image
  · intro m hm
    show KeepsPermanent c.N c.B 0 (v.log ++ evs ++ m)
    rw [List.append_assoc]
    exact k.keeps _ (h m hm)

theorem cutFrom_run {a b : Dev} {evs : List Ev} (h : b = devRun c a evs) (j : Nat) :
    (cutFrom c a b j).file = (evs.take j).foldl (Spec.applyEv c.eraseFx) a.file ∧ (cutFrom c a b j).log = a.log ++ evs.take j := by
  subst h
  have e : between a (devRun c a evs) = evs := by
    show (a.log ++ evs).drop a.log.length = evs
    rw [List.drop_left]
  unfold cutFrom cutBetween
  rw [e]
  exact ⟨rfl, rfl⟩

/-- Power fails in the course of some storage operations. -/
theorem RlcKept.cutF (hE : RlcEraser c P) {R : Log → Prop} {L' : Log} {a b : Dev} {evs : List Ev} {f' : Nat → Option Page}
    (k : RlcKept c P L a) (T : Trail c P R L a.file evs L' f') (hb : b = devRun c a evs) (j : Nat) :
    ∃ L1, R L1 ∧ StoredR c P L1 (cutFrom c a b j).file ∧ RlcKept c P L1 (cutFrom c a b j) := by
  obtain ⟨L1, h1, h2, h3⟩ := T.cut j
  obtain ⟨e1, e2⟩ := cutFrom_run hb j
  refine ⟨L1, h1, by rw [e1]; exact h2, ?_, ?_, ?_⟩
  rotate_right
  · rw [e2]
    intro ph q hq
    rcases List.mem_append.mp hq with h | h
    · exact k.writes ph q h
    · exact T.writes ph q (List.mem_of_mem_take h)
  · rw [e1, e2]
    unfold Spec.image
    rw [List.foldl_append]
    exact image_run hE _ k.image
  · intro m hm
    rw [e2, List.append_assoc]
    exact k.keeps _ (h3 m hm)

/-- Pages that were never written become readable. -/
theorem RlcKept.gaps {v : Dev} {f' : Nat → Option Page} (k : RlcKept c P L v) (g : Gaps c P v.file f') :
    RlcKept c P L { v with file := f' } := by
  refine ⟨fun ph => ?_, k.keeps, k.writes⟩
  rcases g ph with e | ⟨e, _, q, e1, e2, e3⟩
  · show f' ph = _ ∨ _ ∧ ∃ q, f' ph = some q ∧ _
    rw [e]; exact k.image ph
  · right
    refine ⟨?_, q, e1, e2, ?_⟩
    · rcases k.image ph with h | ⟨h, _⟩
      · rw [← h]; exact e
      · exact h
    · rcases e3 with h | h
      · exact Or.inl h.1
      · exact Or.inr ⟨h.1, h.2.1⟩

theorem StoredR.gaps (G : RlcGeo c) {f f' : Nat → Option Page} (s : StoredR c P L f) (g : Gaps c P f f') : StoredR c P L f' := by
  obtain ⟨ps, S, fr, t, I, h⟩ := s
  exact ⟨ps, S, fr, t, I.gaps G g, h⟩

theorem OrderedLog.cutPut {r : Spec.Rec} (g : OrderedLog c lo K L) (hcap : 0 < c.maxRec) (g' : OrderedLog c lo K (L.put c.maxRec r)) {L1 : Log}
    (h : CutPut c.maxRec L r L1) : OrderedLog c lo K L1 := by
  cases h with
  | before => exact g
  | after => exact g'
  | full h =>
    have ha : (⟨L.pages ++ [L.buf], []⟩ : Log).all = L.all := by simp [Log.all]
    refine ⟨?_, by rw [ha]; exact g.sorted, by rw [ha]; exact g.bound, ?_, Nat.zero_le _⟩
    · intro pg hp
      rcases List.mem_append.mp hp with h1 | h1
      · exact g.full pg h1
      · rw [List.mem_singleton.mp h1]
        intro h2
        rw [h2] at h
        simp at h; omega
    · intro pg hp
      rcases List.mem_append.mp hp with h1 | h1
      · exact g.cap.1 pg h1
      · rw [List.mem_singleton.mp h1]; exact g.cap.2

theorem read_same {x x' : Idx} {op : Op} {o : Out} (hr : op.isRead) (e : step c d x op = .ok (d', x', o)) : SameButCache d d' := by
  cases op with
  | put k v => simp [Op.isRead] at hr
  | flush => simp [Op.isRead] at hr
  | get k =>
    simp only [step] at e
    obtain ⟨⟨d2, r, out⟩, h2, e⟩ := Res.bind_eq_ok e
    cases e
    exact get_same h2
  | scan q =>
    simp only [step] at e
    obtain ⟨⟨d2, x2, rs⟩, h2, e⟩ := Res.bind_eq_ok e
    cases e
    exact scanAll_same h2

theorem RlcKept.same (k : RlcKept c P L d.dev) (E : SameButCache d d') : RlcKept c P L d'.dev := by rw [E.dev]; exact k

/-- Everything that may ever happen. -/
theorem Rlc.inv (hok : RlcOk c K P) (hB : Bounds c lo K P) (hP2 : 2 ≤ P) {M : Machine} (h : Rlc c lo K P M H) :
    RlcInv c lo K P H M := by
  induction h with
  | new rb sm =>
    exact ⟨Log.empty, [], 0, none, RTab.fresh hok (by omega) rb sm, .nil, fun ph => Or.inl rfl, fun m hm => hm,
      fun ph q h => (by simp [Data.fresh] at h)⟩
  | @put d d' H k v w h ho hP e ih =>
    obtain ⟨L, ps, fr, t, T, hM, hK⟩ := ih
    obtain ⟨o1, o2, o3, o4⟩ := ho
    obtain ⟨d1, r1, w1, evs, g1, g2, g3⟩ := T.put hok hB o1 o2 o3 (fun r hr => o4 r (mayHold_tried hM r hr)) hP
    rw [e] at g1
    cases g1
    rcases g3 with ⟨_, ⟨ps', fr', t', T'⟩, TR⟩ | ⟨g, _⟩
    · refine ⟨_, ps', fr', t', T', hM.put _, ?_⟩
      rw [g2]
      exact hK.run hok.eraser TR
    · exact absurd rfl g
  | @refused d d' H k v w r h ho hP e hr ih =>
    obtain ⟨L, ps, fr, t, T, hM, hK⟩ := ih
    obtain ⟨o1, o2, o3, o4⟩ := ho
    obtain ⟨d1, r1, w1, evs, g1, g2, g3⟩ := T.put hok hB o1 o2 o3 (fun r hr => o4 r (mayHold_tried hM r hr)) hP
    rw [e] at g1
    cases g1
    rcases g3 with ⟨g, _⟩ | ⟨_, ge, T'⟩
    · exact absurd g hr
    · refine ⟨_, ps, fr, t, T', hM, ?_⟩
      rw [g2, ge, devRun_nil]
      exact hK
  | @flush d d' H w h hf hP e ih =>
    obtain ⟨L, ps, fr, t, T, hM, hK⟩ := ih
    obtain ⟨d1, w1, evs, g1, g2, ⟨ps', fr', t', T'⟩, TR⟩ := T.flush hok hB hf hP
    rw [e] at g1
    cases g1
    refine ⟨_, ps', fr', t', T', hM.flush, ?_⟩
    rw [g2]
    exact hK.run hok.eraser TR
  | @read d d' H x x' op o h hr e ih =>
    obtain ⟨L, ps, fr, t, T, hM, hK⟩ := ih
    have E := read_same hr e
    exact ⟨L, ps, fr, t, T.congr E, hM, hK.same E⟩
  | @idle d H h ih =>
    obtain ⟨L, ps, fr, t, T, hM, hK⟩ := ih
    exact ⟨L, T.img.storedR T.pages T.tmp, T.ordered, hM, hK⟩
  | @gaps v H f' h g ih =>
    obtain ⟨L, s, o, hM, hK⟩ := ih
    exact ⟨L, s.gaps hok.geo g, o, hM, hK.gaps g⟩
  | @putCut d d' H k v w r h ho hP e j ih =>
    obtain ⟨L, ps, fr, t, T, hM, hK⟩ := ih
    obtain ⟨o1, o2, o3, o4⟩ := ho
    obtain ⟨d1, r1, w1, evs, g1, g2, g3⟩ := T.put hok hB o1 o2 o3 (fun r hr => o4 r (mayHold_tried hM r hr)) hP
    rw [e] at g1
    cases g1
    rw [g2]
    rcases g3 with ⟨_, ⟨ps', fr', t', T'⟩, TR⟩ | ⟨_, ge, T'⟩
    · obtain ⟨L1, c1, c2, c3⟩ := hK.cutF hok.eraser TR rfl j
      exact ⟨L1, c2, T.ordered.cutPut hok.cap T'.ordered c1, hM.putCut _ c1, c3⟩
    · have TR : Trail c P (· = L) L d.dev.file evs L d.dev.file := by
        rw [ge]
        exact .nil rfl (T.img.storedR T.pages T.tmp)
      obtain ⟨L1, c1, c2, c3⟩ := hK.cutF hok.eraser TR rfl j
      subst c1
      exact ⟨L1, c2, T.ordered, hM.putCut _ .before, c3⟩
  | @flushCut d d' H w r h hf hP e j ih =>
    obtain ⟨L, ps, fr, t, T, hM, hK⟩ := ih
    obtain ⟨d1, w1, evs, g1, g2, ⟨ps', fr', t', T'⟩, TR⟩ := T.flush hok hB hf hP
    rw [e] at g1
    cases g1
    rw [g2]
    obtain ⟨L1, c1, c2, c3⟩ := hK.cutF hok.eraser TR rfl j
    refine ⟨L1, c2, ?_, hM.flushCut c1, c3⟩
    rcases c1 with c1 | c1
    · rw [c1]; exact T.ordered
    · rw [c1]; exact T'.ordered
  | @reopen v d' H h rb sm e ih =>
    obtain ⟨L, s, g, hM, hK⟩ := ih
    obtain ⟨d1, evs, ps, fr, t, g1, g2, T, TR, _⟩ := recover_rlc hok hB hP2 g s rb sm
    rw [e] at g1
    cases g1
    refine ⟨L, ps, fr, t, T, hM, ?_⟩
    rw [g2]
    exact hK.run hok.eraser (TR (fun _ => True) trivial)
  | @openCut v d' H r h rb sm e j ih =>
    obtain ⟨L, s, g, hM, hK⟩ := ih
    obtain ⟨d1, evs, ps, fr, t, g1, g2, T, TR, _⟩ := recover_rlc hok hB hP2 g s rb sm
    rw [e] at g1
    cases g1
    rw [g2]
    obtain ⟨L1, c1, c2, c3⟩ := hK.cutF hok.eraser (TR (· = L) rfl) rfl j
    subst c1
    exact ⟨L1, c2, g, hM, c3⟩

end

end EDB
