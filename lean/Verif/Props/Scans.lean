import Verif.Proofs.Always
import Verif.Model.Cursor
import Verif.Props.History

/-!
# C05, C06, C07: scans
-/

namespace EDB

open Spec (Log Range Op Out ROp ROut setAt)

/-- Every history that keeps the read cache safe leads to a state representing the log it describes. -/
theorem reached {c : Cfg} {lo K : Nat} {ops : List Op} {rb : Page} {sm : Nat → Nat × Nat} {x : Idx}
    (hok : c.Ok K) (hB : Bounds c lo K ops.length) (h255 : c.maxRec ≤ 255) (hC : Client c lo K ops)
    (hS : NoStale c (Data.fresh c rb sm) x ops) :
    ∃ d, runOps c (Data.fresh c rb sm) x ops = .ok (d, x) ∧ d.next ≤ ops.length ∧
      Table c lo K d (Spec.logAfter c.maxRec Log.empty (history c (Data.fresh c rb sm) x ops)) := by
  obtain ⟨d, h1, h2, h3, _⟩ := runOps_ok (m := 0) hok (Or.inl rfl) hB h255 (G := fun d x ops => NoStale c d x ops)
    (fun d L x op ops g _ hc => g.1 hc) (fun d L x op ops d' x' o g _ _ e => g.2 d' x' o e)
    ops (Data.fresh c rb sm) x Log.empty (fresh_table hok rb sm) (by simp [Data.fresh]) hC (by simp [Log.all, Log.empty]) hS
  exact ⟨d, h1, by simpa [Data.fresh] using h3, h2⟩

/-! ## C05, C06 -/

/-- C06 (`_partial`: for histories without a stale read cache, see `C05_false_stale_cache`; no bitmap index, see C23).
After every such history, for all bounds, an iterator opened with these bounds and advanced until `embedDBNext` returns 0
terminates and yields exactly the retained records within the bounds, in order. -/
theorem C06_range_scan_partial (c : Cfg) (lo K : Nat) (ops : List Op) (rb : Page) (sm : Nat → Nat × Nat) (x : Idx)
    (hok : c.Ok K) (hB : Bounds c lo K ops.length) (h255 : c.maxRec ≤ 255) (hC : Client c lo K ops)
    (hS : NoStale c (Data.fresh c rb sm) x ops) (hbm : c.useBmap = false) (q : Range) (hq : KeysOk K q) :
    let L := Spec.logAfter c.maxRec Log.empty (history c (Data.fresh c rb sm) x ops)
    ∃ d d', runOps c (Data.fresh c rb sm) x ops = .ok (d, x) ∧
      scanAll c d x q = .ok (d', x, Spec.scan c.cmpData q (L.live (Spec.dropped c.N c.B L.pages.length))) := by
  obtain ⟨d, h1, h2, T⟩ := reached (rb := rb) (sm := sm) (x := x) hok hB h255 hC hS
  obtain ⟨d', e, _⟩ := scanAll_ok hok.cmp hok.N0 hB hok.spline hbm T.sim h2 T.cap x hq
  refine ⟨d, d', h1, ?_⟩
  rw [e, T.dropped hok.B0]

/-- C05 (`_partial`, as C06).  A scan without bounds yields exactly the retained records; their keys are strictly
ascending, so each occurs once. -/
theorem C05_full_scan_partial (c : Cfg) (lo K : Nat) (ops : List Op) (rb : Page) (sm : Nat → Nat × Nat) (x : Idx)
    (hok : c.Ok K) (hB : Bounds c lo K ops.length) (h255 : c.maxRec ≤ 255) (hC : Client c lo K ops)
    (hS : NoStale c (Data.fresh c rb sm) x ops) (hbm : c.useBmap = false) :
    let L := Spec.logAfter c.maxRec Log.empty (history c (Data.fresh c rb sm) x ops)
    ∃ d d' rows, runOps c (Data.fresh c rb sm) x ops = .ok (d, x) ∧ scanAll c d x allRows = .ok (d', x, rows) ∧
      rows = L.live (Spec.dropped c.N c.B L.pages.length) ∧ rows.Pairwise (fun r s => r.1 < s.1) := by
  obtain ⟨d, h1, h2, T⟩ := reached (rb := rb) (sm := sm) (x := x) hok hB h255 hC hS
  obtain ⟨d', e, _⟩ := scanAll_ok hok.cmp hok.N0 hB hok.spline hbm T.sim h2 T.cap x
    (q := allRows) ⟨by simp [allRows], by simp [allRows]⟩
  refine ⟨d, d', _, h1, e, ?_, ?_⟩
  · rw [T.dropped hok.B0]
    unfold Spec.scan
    rw [List.filter_eq_self]
    intro r _
    simp [Range.has, allRows]
  · exact (Log_live_sorted T.sim.sorted _).sublist List.filter_sublist

/-! ## C07 -/

/-- What the invariant of the read-only phase says about one iterator. -/
structure IterOk (c : Cfg) (K : Nat) (d : Data) (L : Log) (it : Iter) (l : List Rec) : Prop where
  keys : KeysOk K it.range
  qbm : it.qbm = none
  page : d.min ≤ it.page
  rows : Spec.scan c.cmpData it.range (rest L it.page it.slot) = l

theorem readRun_ok {c : Cfg} {lo K a P : Nat} {L : Log} (hok : c.Ok K) (hB : Bounds c lo K P) (hbm : c.useBmap = false)
    (h255 : ∀ i, i < L.buf.length → i % 256 ≠ 255) : ∀ (ops : List ROp) (d : Data) (x : Idx)
    (its : Nat → Option Iter) (pend : Nat → Option (List Rec)) (m : Nat), Sim c lo K a d L → d.next ≤ P → d.min = m →
    (∀ k, ROp.get k ∈ ops → k < K) → (∀ i q, ROp.opn i q ∈ ops → KeysOk K q) →
    (∀ i, (pend i = none) ∨ ∃ it l, its i = some it ∧ pend i = some l ∧ IterOk c K d L it l) →
    Spec.ReadRun (L.live m) c.cmpData pend (rhistory c d x its ops) := by
  intro ops
  induction ops with
  | nil => intros; exact trivial
  | cons op ops ih =>
    intro d x its pend m S hP hm hg ho hI
    have hg' : ∀ k, ROp.get k ∈ ops → k < K := fun k h => hg k (by simp [h])
    have ho' : ∀ i q, ROp.opn i q ∈ ops → KeysOk K q := fun i q h => ho i q (by simp [h])
    have keep : ∀ {d' : Data}, SameButCache d d' → ∀ i, (pend i = none) ∨
        ∃ it l, its i = some it ∧ pend i = some l ∧ IterOk c K d' L it l := by
      intro d' E i
      rcases hI i with h | ⟨it, l, h1, h2, h3⟩
      · exact Or.inl h
      · exact Or.inr ⟨it, l, h1, h2, h3.keys, h3.qbm, by rw [E.min]; exact h3.page, h3.rows⟩
    unfold rhistory
    cases op with
    | get k =>
      obtain ⟨d', code, out, e1, e2, e3, e4⟩ := get_ok hok.cmp hok.N0 hB hok.spline (hg k (by simp)) S hP h255
      have e : rstep c d x its (.get k) = .ok (d', x, its, .got (.got code out)) := by
        simp only [rstep]; rw [e1]; rfl
      rw [e]
      refine ⟨?_, ih d' x its pend m e3 (by rw [e2.next]; exact hP) (by rw [e2.min]; exact hm) hg' ho' (keep e2)⟩
      rw [answer_of e4, hm]
    | opn i q =>
      have hq := ho i q (by simp)
      obtain ⟨it, i1, i2, i3, i4, i5, i6, i7⟩ := initIter_ok hok.cmp hB hok.spline hbm S hP hq
      have e : rstep c d x its (.opn i q) = .ok (d, x, setAt its i (some it), .opened) := by
        simp only [rstep]; rw [i1]; rfl
      rw [e]
      refine ⟨rfl, ih d x _ _ m S hP hm hg' ho' ?_⟩
      intro j
      unfold setAt
      by_cases hj : j = i
      · right
        rw [if_pos hj, if_pos hj]
        refine ⟨it, _, rfl, rfl, by rw [i2]; exact hq, i3, i5, ?_⟩
        rw [i2, i4, i7, hm]
      · rw [if_neg hj, if_neg hj]; exact hI j
    | nxt i =>
      rcases hI i with h | ⟨it, l, h1, h2, h3⟩
      · cases hr : rstep c d x its (.nxt i) with
        | ok r =>
          simp only [Spec.ReadRun, h]
        | ub => simp only [Spec.ReadRun, h]
        | fuel => simp only [Spec.ReadRun, h]
      · obtain ⟨d', it', out, e1, e2, e3, e4⟩ := next_ok hok.cmp hok.N0 x S h3.keys h3.qbm h3.page
        have e : rstep c d x its (.nxt i) = .ok (d', x, setAt its i (some it'), .row out) := by
          simp only [rstep]; rw [h1]; simp only; rw [e1]; rfl
        rw [e]
        have hrest : ∀ l' : List Rec, Spec.scan c.cmpData it'.range (rest L it'.page it'.slot) = l' →
            ∀ pend' : Nat → Option (List Rec), (∀ j, pend' j = if j = i then some l' else pend j) →
            ∀ j, (pend' j = none) ∨
              ∃ it l, setAt its i (some it') j = some it ∧ pend' j = some l ∧ IterOk c K d' L it l := by
          intro l' hl pend' hp j
          unfold setAt
          rw [hp j]
          by_cases hj : j = i
          · right
            rw [if_pos hj, if_pos hj]
            exact ⟨it', l', rfl, rfl, by rw [e4.range]; exact h3.keys, by rw [e4.qbm]; exact h3.qbm,
              by rw [e2.min]; have := h3.page; have := e4.page; omega, hl⟩
          · rw [if_neg hj, if_neg hj]; exact keep e2 j
        cases out with
        | none =>
          obtain ⟨q1, q2⟩ := e4.done rfl
          have hl : l = [] := by
            rw [← h3.rows]
            exact List.filter_eq_nil_iff.mpr (fun y hy => by rw [q1 y hy]; simp)
          subst hl
          simp only [Spec.ReadRun, h2]
          refine ⟨trivial, ih d' x _ _ m e3 (by rw [e2.next]; exact hP) (by rw [e2.min]; exact hm) hg' ho' ?_⟩
          refine hrest [] ?_ pend ?_
          · rw [e4.range]
            exact List.filter_eq_nil_iff.mpr (fun y hy => by rw [q1 y (q2 y hy)]; simp)
          · intro j
            by_cases hj : j = i
            · rw [if_pos hj, hj, h2]
            · rw [if_neg hj]
        | some r =>
          obtain ⟨pre, p1, p2, p3⟩ := e4.found r rfl
          have hl : l = r :: Spec.scan c.cmpData it'.range (rest L it'.page it'.slot) := by
            rw [← h3.rows, p1, e4.range]
            unfold Spec.scan
            rw [List.filter_append, List.filter_cons_of_pos p2,
              List.filter_eq_nil_iff.mpr (fun y hy => by rw [p3 y hy]; simp), List.nil_append]
          subst hl
          simp only [Spec.ReadRun, h2]
          refine ⟨trivial, ih d' x _ _ m e3 (by rw [e2.next]; exact hP) (by rw [e2.min]; exact hm) hg' ho' ?_⟩
          exact hrest _ rfl _ (fun j => rfl)

/-- C07 (`_partial`: for tables reached by histories without a stale read cache).  After every such history, for every
interleaving of lookups, iterator openings and `embedDBNext` calls on any number of iterators: every lookup is
answered exactly, and the n-th `embedDBNext` of an iterator returns the n-th record of its own range (then 0 for ever),
whatever happened in between. -/
theorem C07_iterators_partial (c : Cfg) (lo K : Nat) (ops : List Op) (rb : Page) (sm : Nat → Nat × Nat) (x : Idx)
    (hok : c.Ok K) (hB : Bounds c lo K ops.length) (h255 : c.maxRec ≤ 255) (hC : Client c lo K ops)
    (hS : NoStale c (Data.fresh c rb sm) x ops) (hbm : c.useBmap = false) (rops : List ROp)
    (hg : ∀ k, ROp.get k ∈ rops → k < K) (ho : ∀ i q, ROp.opn i q ∈ rops → KeysOk K q) (its : Nat → Option Iter) :
    let L := Spec.logAfter c.maxRec Log.empty (history c (Data.fresh c rb sm) x ops)
    ∃ d, runOps c (Data.fresh c rb sm) x ops = .ok (d, x) ∧
      Spec.ReadRun (L.live (Spec.dropped c.N c.B L.pages.length)) c.cmpData (fun _ => none) (rhistory c d x its rops) := by
  obtain ⟨d, h1, h2, T⟩ := reached (rb := rb) (sm := sm) (x := x) hok hB h255 hC hS
  refine ⟨d, h1, ?_⟩
  refine readRun_ok hok hB hbm ?_ rops d x its _ _ T.sim h2 (T.dropped hok.B0) hg ho (fun _ => Or.inl rfl)
  intro i hi
  have := T.cap.2
  omega

/-- Two iterators over the demo table, interleaved with each other and with a lookup that evicts their page. -/
def demoCursors : List ROp :=
  [.opn 0 allRows, .opn 1 ⟨some 8, none, none, none⟩, .nxt 0, .nxt 1, .get 11, .nxt 0, .nxt 1, .nxt 0]

/-- The hypotheses on the read operations hold, and this is what the client observes. -/
example : (∀ k, ROp.get k ∈ demoCursors → k < 1000) ∧ (∀ i q, ROp.opn i q ∈ demoCursors → KeysOk 1000 q) ∧
    (match runOps demo demo0 noIdx demoPuts with
     | .ok (d, x) => (rhistory demo d x (fun _ => none) demoCursors).map (fun o => match o.2 with
        | some (.row (some r)) => r.1
        | some (.got (.got _ (some v))) => leNat v
        | _ => 0)
     | _ => []) = [0, 0, 5, 8, 10, 6, 9, 7] := by
  refine ⟨by simp [demoCursors], ?_, by decide +kernel⟩
  intro i q h
  simp [demoCursors] at h
  rcases h with ⟨_, rfl⟩ | ⟨_, rfl⟩
  · exact ⟨by simp [allRows], by simp [allRows]⟩
  · exact ⟨by simp, by simp⟩

end EDB
