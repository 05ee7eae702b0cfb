import Verif.Proofs.VarRecover
import Verif.Proofs.VarReach

/-! Helper lemmas: lives of tables with variable data, with power failures. -/

namespace EDB

open Spec (Log VLog VOp VOut)

/-- An operation of a client that plays by the rules, on a variable data file with room for it. -/
structure AllowedV (c : Cfg) (lo K P : Nat) (d : Data) (v : Var) (l : VLog) (op : VOp) : Prop where
  client : ClientV c lo K [op]
  asc : ∀ r ∈ l.log.all, ∀ k ∈ Spec.offeredV [op], r.1 < k
  pages : d.next + 1 < P
  cache : CacheFree c d v op
  clean : CleanRead c d v op
  room : (v.next + 2) * c.vcap + varNeed c (pageCount d.wbuf) [op] ≤ c.numVar * c.vcap

/-- The variable data file consists of a single page whose header names key 0. -/
def LonePage (c : Cfg) (V : Dev) : Prop := V.file 1 = none ∧ ∃ p, V.file 0 = some p ∧ vkey c p = 0

/-- The data file has not wrapped yet; or it has, the spline is exact enough (`maxErr`) and power did not fail right after
the erase of the first block of the data file (`SafeCut`). -/
def CanReopen (c : Cfg) (d' : Data) (D : Dev) : Prop := d'.next ≤ c.N ∨ (c.maxErr ≤ 1 ∧ SafeCut c D D.log.length)

/-- The log of the data pages that were on the device. -/
def cutVLog (l : VLog) (D : Dev) : VLog := ⟨⟨l.log.pages.take (Spec.writes D.log).length, []⟩, l.var⟩

/-- Life of a table with variable data: keys in `[lo, K)`, fewer than `P` data pages ever written.  Number of data pages
found at the last reopening (0: not reopened yet), state of the library, and what was stored. -/
inductive LifeV (c : Cfg) (lo K P : Nat) : Nat → Data → Idx → Var → VLog → Prop
  /-- created empty -/
  | new (rb vrb : Page) (sm : Nat → Nat × Nat) (hvf : Bool) (x : Idx) :
      LifeV c lo K P 0 (Data.fresh c rb sm) x (Var.fresh c vrb hvf) VLog.empty
  /-- one client operation -/
  | op {R : Nat} {d d' : Data} {x x' : Idx} {v v' : Var} {l : VLog} {op : VOp} {o : VOut} (h : LifeV c lo K P R d x v l)
      (A : AllowedV c lo K P d v l op) (hx : op = .flush → IdxRoom c x) (e : stepV c d x v op = .ok (d', x', v', o)) :
      LifeV c lo K P R d' x' v' (Spec.vlogAfter c.maxRec l [(op, some o)])
  /-- power failure during an operation, and reopening -/
  | cut {R : Nat} {d d' d'' : Data} {x x' x'' : Idx} {v v' v'' : Var} {l : VLog} {op : VOp} {o : VOut} {D V : Dev} (h : LifeV c lo K P R d x v l)
      (A : AllowedV c lo K P d v l op) (e : stepV c d x v op = .ok (d', x', v', o)) (hop : op ≠ .flush) (hN : CanReopen c d' D)
      (hf : PowerFail c d x v op D V) (hV : ¬ LonePage c V) (rb vrb : Page) (sm : Nat → Nat × Nat) (hvf : Bool)
      (hr : reopenV c D V rb sm vrb hvf = (d'', v'', 0)) :
      LifeV c lo K P (Spec.writes D.log).length d'' x'' v'' (cutVLog (Spec.vlogAfter c.maxRec l [(op, some o)]) D)

/-- What is known of such a table. -/
structure LifeInv (c : Cfg) (lo K P R : Nat) (d : Data) (v : Var) (l : VLog) (lv : Nat) (g : Gh) : Prop where
  tab : VTableM c lo lv K (Spec.recovered c.N c.B R) False d v l g
  spl : Spec.recovered c.N c.B R = 0 ∨ c.maxErr ≤ 1
  old : R ≤ l.log.pages.length
  jr : Journal c d l.log
  fit : ∀ r ∈ l.log.all, r.1 + 1 < K
  pages : d.next < P
  room : v.next < c.numVar
  ids : ∀ ph p, v.dev.file ph = some p → pageId p = ph
  noErase : (∀ q, c.eraseFx (some q) = some q) ∨ (d.next ≤ c.N → ∀ ev ∈ d.dev.log, ∀ a b, ev ≠ .erase a b)
  lift : ∀ k, lo ≤ k → (∀ r ∈ l.log.all, r.1 < k) → lv ≤ k

section
variable {c : Cfg} {lo K P R lv : Nat} {d d' : Data} {x x' : Idx} {v v' : Var} {l : VLog} {g : Gh} {op : VOp} {o : VOut}

theorem getVar_dev {key : Nat} {r : Data × Var × Int × Option (List Byte) × Option Stream} (e : getVar c d v key = .ok r) :
    r.1.dev = d.dev := by
  unfold getVar at e
  split_ifs at e
  · obtain ⟨⟨r1, out⟩, -, e2⟩ := Res.bind_eq_ok e
    simp only at e2
    split_ifs at e2
    · obtain ⟨⟨v1, s1, st1⟩, -, e4⟩ := Res.bind_eq_ok e2
      simp only [Res.ok.injEq] at e4
      rw [← e4]
    · obtain ⟨⟨d1, r2, out2⟩, h1, e4⟩ := Res.bind_eq_ok e2
      have := (get_same h1).dev
      simp only at e4
      split_ifs at e4
      · obtain ⟨i, -, e6⟩ := Res.bind_eq_ok e4
        cases i with
        | none => simp at e6
        | some i =>
          simp only at e6
          split_ifs at e6
          obtain ⟨⟨v1, s1, st1⟩, -, e8⟩ := Res.bind_eq_ok e6
          simp only [Res.ok.injEq] at e8
          rw [← e8]
          exact this
      · simp only [Res.ok.injEq] at e4
        rw [← e4]
        exact this
  · simp only [Res.ok.injEq] at e
    rw [← e]

theorem outDev_congr {d1 : Data} (E : SameButCache d d1) : outDev c d1 = outDev c d := by
  unfold outDev outPage
  rw [E.dev, E.next, E.avail, E.wbuf]

/-- What an operation does to the data file. -/
theorem data_step (hok : c.Ok K) (hv : c.VFile) (e : stepV c d x v op = .ok (d', x', v', o)) :
    (d'.dev = d.dev ∧ (completesV c d op → op ≠ .flush ∧ o ≠ .code 0)) ∨
      (d'.dev = outDev c d ∧ completesV c d op ∧ (op ≠ .flush → o = .code 0)) := by
  cases op with
  | put k a b =>
    obtain ⟨-, r, w, hx, ho⟩ := put_parts hv hok.plain e
    have E := orderCheck_sameButCache (c := c) d k
    rw [putX_eq hok] at hx
    by_cases h1 : (orderCheck c d k).2 = true
    · rw [if_pos h1] at hx
      obtain ⟨x1, -, hx⟩ := Res.bind_eq_ok hx
      simp only [Res.ok.injEq, Prod.mk.injEq] at hx
      obtain ⟨rfl, -, rfl, -⟩ := hx
      unfold accepted
      simp only
      rw [E.wbuf]
      by_cases hf : pageCount d.wbuf ≥ c.maxRec
      · right
        rw [if_pos hf]
        exact ⟨outDev_congr E, hf, fun _ => ho⟩
      · left
        rw [if_neg hf]
        exact ⟨E.dev, fun h => absurd h hf⟩
    · rw [if_neg h1] at hx
      simp only [Res.ok.injEq, Prod.mk.injEq] at hx
      obtain ⟨rfl, -, rfl, -⟩ := hx
      left
      exact ⟨E.dev, fun _ => ⟨by simp, fun h => by rw [ho] at h; simp at h⟩⟩
  | flush =>
    simp only [stepV, flushV] at e
    obtain ⟨⟨d1, x1, v1, r1⟩, e1, e2⟩ := Res.bind_eq_ok e
    obtain ⟨⟨d2, x2, r2, w2⟩, e3, e4⟩ := Res.bind_eq_ok e1
    simp only [Res.ok.injEq, Prod.mk.injEq] at e2
    obtain ⟨rfl, rfl, rfl, rfl⟩ := e2
    unfold flushX at e3
    by_cases h1 : pageCount d.wbuf < 1
    · rw [if_pos h1] at e3
      simp only [Res.ok.injEq, Prod.mk.injEq] at e3
      obtain ⟨rfl, -⟩ := e3
      left
      have : d1 = d := by
        split_ifs at e4 <;> simp_all
      rw [this]
      exact ⟨rfl, fun h => absurd h (by simp only [completesV]; omega)⟩
    · right
      rw [if_neg h1, writePage_eq hok.io hok.spline, Res.ok_bind] at e3
      have h3 : d2.dev = outDev c d := by
        simp only at e3
        by_cases hu : c.useIndex = true
        · rw [if_pos hu] at e3
          obtain ⟨⟨x3, b3⟩, -, e5⟩ := Res.bind_eq_ok e3
          cases b3 <;> (simp only [if_true, Bool.false_eq_true, if_false, Res.ok.injEq, Prod.mk.injEq] at e5; rw [← e5.1]; simp [indexPage, hok.spline]; rfl)
        · simp only [if_neg hu, Res.ok.injEq, Prod.mk.injEq] at e3
          rw [← e3.1]; simp [indexPage, hok.spline]; rfl
      have h2 : d1.dev = outDev c d := by
        rw [← h3]
        split_ifs at e4 <;> (simp only [Res.ok.injEq, Prod.mk.injEq] at e4; rw [← e4.1])
      exact ⟨h2, by simp only [completesV]; omega, fun h => absurd rfl h⟩
  | get k =>
    simp only [stepV] at e
    obtain ⟨⟨d1, r1, o1⟩, e1, e2⟩ := Res.bind_eq_ok e
    simp only [Res.ok.injEq, Prod.mk.injEq] at e2
    obtain ⟨rfl, -⟩ := e2
    exact Or.inl ⟨(get_same e1).dev, fun h => h.elim⟩
  | getVar k =>
    simp only [stepV] at e
    obtain ⟨⟨d1, v1, r1, o1, s1⟩, e1, e2⟩ := Res.bind_eq_ok e
    obtain ⟨⟨v2, b2⟩, e3, e4⟩ := Res.bind_eq_ok e2
    simp only [Res.ok.injEq, Prod.mk.injEq] at e4
    obtain ⟨rfl, -⟩ := e4
    exact Or.inl ⟨getVar_dev e1, fun h => h.elim⟩

theorem Grow.step (hok : c.Ok K) (hv : c.VFile) (e : stepV c d x v op = .ok (d', x', v', o)) : Grow c v v' := by
  cases op with
  | put k a b => exact (Grow.pre hv v d).trans (put_parts hv hok.plain e).1
  | flush =>
    simp only [stepV, flushV] at e
    obtain ⟨⟨d1, x1, v1, r1⟩, e1, e2⟩ := Res.bind_eq_ok e
    obtain ⟨⟨d2, x2, r2, w2⟩, e3, e4⟩ := Res.bind_eq_ok e1
    simp only [Res.ok.injEq, Prod.mk.injEq] at e2
    obtain ⟨rfl, rfl, rfl, rfl⟩ := e2
    simp only at e4
    split_ifs at e4
    · simp only [Res.ok.injEq, Prod.mk.injEq] at e4
      rw [← e4.2.2.1]
      exact Grow.flush hv v
    · simp only [Res.ok.injEq, Prod.mk.injEq] at e4
      rw [← e4.2.2.1]
      exact Grow.refl c v
  | get k =>
    simp only [stepV] at e
    obtain ⟨⟨d1, r1, o1⟩, e1, e2⟩ := Res.bind_eq_ok e
    simp only [Res.ok.injEq, Prod.mk.injEq] at e2
    rw [← e2.2.2.1]
    exact Grow.refl c v
  | getVar k => exact Grow.stepGetVar hv e

theorem vlogAfter_obs {g' : Gh} {l' : VLog} (h : VObs c d l g' op o l') : Spec.vlogAfter c.maxRec l [(op, some o)] = l' := by
  cases op with
  | put k a b => rcases h with ⟨rfl, rfl⟩ | ⟨rfl, rfl, -⟩ <;> rfl
  | flush => obtain ⟨rfl, rfl⟩ := h; rfl
  | get k => obtain ⟨rfl, r, out, rfl, -⟩ := h; rfl
  | getVar k => obtain ⟨rfl, r, out, bs, rfl, -⟩ := h; rfl

theorem LifeInv.runs (hok : c.Ok K) (hv : c.VFile) (hB : Bounds c lo K P) (h128 : c.maxRec ≤ 128) (I : LifeInv c lo K P R d v l lv g)
    (A : AllowedV c lo K P d v l op) (x : Idx) (hx : op = .flush → IdxRoom c x) :
    ∃ d' x' v' l' g' o, stepV c d x v op = .ok (d', x', v', o) ∧ VObs c d l g' op o l' ∧ (∃ t, g'.es = g.es ++ t) ∧ VTableM c lo lv K (Spec.recovered c.N c.B R) False d' v' l' g' ∧
      d'.next ≤ d.next + 1 ∧ v.next ≤ v'.next ∧ v'.next < c.numVar := by
  have hcap := hv.cap4
  have hop := I.tab.opn
  unfold Open at hop
  have hle : g.s.length + c.vcap ≤ (v.next + 2) * c.vcap := by
    have e1 : (v.next + 2) * c.vcap = (v.next + 1) * c.vcap + c.vcap := by ring
    omega
  obtain ⟨d', x', v', l', g', o, e, h1, h2, ⟨t0, h3, -⟩, -, -, h4⟩ := I.tab.stepX hok I.spl hv hB h128 x (by have := A.pages; omega)
    A.client (fun k hk => I.lift k (A.client.low k hk) fun r hr => A.asc r hr k hk) A.asc A.cache (fun h => h.elim) hx (m := c.vcap)
    (Or.inr (by have := A.room; omega))
  obtain ⟨T', t1, -, t3⟩ := h4 (fun k hk => by have := A.clean; subst hk; exact this)
  refine ⟨d', x', v', l', g', o, e, h1, ⟨t0, h3⟩, T', t1, h2, ?_⟩
  have t4 := t3.resolve_left id
  have := T'.inv.sim.lo
  by_contra hcon
  have e2 := Nat.mul_le_mul_right c.vcap (show c.numVar ≤ v'.next by omega)
  omega

/-- The state after an operation. -/
theorem LifeInv.step (hok : c.Ok K) (hv : c.VFile) (hB : Bounds c lo K P) (h128 : c.maxRec ≤ 128) (I : LifeInv c lo K P R d v l lv g)
    (A : AllowedV c lo K P d v l op) (hx : op = .flush → IdxRoom c x) (e : stepV c d x v op = .ok (d', x', v', o)) {l' : VLog} (hl : l' = Spec.vlogAfter c.maxRec l [(op, some o)]) :
    ∃ g', LifeInv c lo K P R d' v' l' lv g' ∧ (∃ t, g'.es = g.es ++ t) ∧ (∀ r ∈ l.log.all, r ∈ l'.log.all ∧ l'.var r.1 = l.var r.1) ∧
      ((d'.dev = d.dev ∧ l'.log.pages = l.log.pages) ∨
        (completesV c d op ∧ d'.dev = outDev c d ∧ l'.log.pages = l.log.pages ++ [l.log.buf])) := by
  obtain ⟨d1, x1, v1, l1, g', o1, s1, s2, s3, T', s4, s5, s6⟩ := I.runs hok hv hB h128 A x hx
  rw [e] at s1
  simp only [Res.ok.injEq, Prod.mk.injEq] at s1
  obtain ⟨rfl, -, rfl, rfl⟩ := s1
  rw [vlogAfter_obs s2] at hl
  subst hl
  have hcount : pageCount d.wbuf = l.log.buf.length := by rw [← I.tab.tab.sim.buf, recs_length]
  have hcap := hok.cap
  -- the log
  have hlog : (∀ r ∈ l.log.all, r ∈ l'.log.all ∧ l'.var r.1 = l.var r.1) ∧ (∀ r ∈ l'.log.all, r.1 + 1 < K) ∧
      (l'.log.pages = l.log.pages ∧ (completesV c d op → op ≠ .flush ∧ o ≠ .code 0) ∨
        completesV c d op ∧ o = .code 0 ∧ l'.log.pages = l.log.pages ++ [l.log.buf] ∧ l.log.buf ≠ []) := by
    cases op with
    | put k a b =>
      obtain ⟨c1, c2, c3, c4⟩ := A.client.put k a b (by simp)
      rcases s2 with ⟨rfl, rfl⟩ | ⟨rfl, rfl, -⟩
      · have hall : (l.put c.maxRec k a b).log.all = l.log.all ++ [(k, a)] := Log_put_all _ _
        refine ⟨?_, ?_, ?_⟩
        · intro r hr
          rw [hall]
          refine ⟨List.mem_append_left _ hr, ?_⟩
          have := A.asc r hr k (by simp [Spec.offeredV])
          simp only [VLog.put]
          rw [if_neg (by omega)]
        · intro r hr
          rw [hall] at hr
          rcases List.mem_append.mp hr with h | h
          · exact I.fit r h
          · rw [List.mem_singleton.mp h]; exact c2
        · unfold VLog.put Log.put
          simp only [completesV]
          by_cases hf : l.log.buf.length ≥ c.maxRec
          · right
            rw [if_pos hf]
            exact ⟨by omega, trivial, rfl, fun h => by rw [h, List.length_nil] at hf; omega⟩
          · left
            rw [if_neg hf]
            exact ⟨rfl, fun h => by omega⟩
      · exact ⟨fun r hr => ⟨hr, rfl⟩, I.fit, Or.inl ⟨rfl, fun _ => ⟨by simp, by simp⟩⟩⟩
    | flush =>
      obtain ⟨rfl, rfl⟩ := s2
      have hall : l.log.flush.all = l.log.all   := Log_flush_all
      refine ⟨?_, ?_, ?_⟩
      · intro r hr
        rw [hall]
        exact ⟨hr, rfl⟩
      · intro r hr
        rw [hall] at hr
        exact I.fit r hr
      · simp only [completesV]
        unfold Log.flush
        by_cases hf : l.log.buf = []
        · left
          rw [if_pos hf]
          refine ⟨rfl, fun h => ?_⟩
          rw [hf, List.length_nil] at hcount
          exact absurd hcount h
        · right
          rw [if_neg hf]
          have := List.length_pos_iff.mpr hf
          exact ⟨by omega, trivial, rfl, hf⟩
    | get k =>
      obtain ⟨rfl, -⟩ := s2
      exact ⟨fun r hr => ⟨hr, rfl⟩, I.fit, Or.inl ⟨rfl, fun h => h.elim⟩⟩
    | getVar k =>
      obtain ⟨rfl, -⟩ := s2
      exact ⟨fun r hr => ⟨hr, rfl⟩, I.fit, Or.inl ⟨rfl, fun h => h.elim⟩⟩
  obtain ⟨l1, l2, l3⟩ := hlog
  -- the files
  have hdata : (d'.dev = d.dev ∧ l'.log.pages = l.log.pages) ∨
      (completesV c d op ∧ d'.dev = outDev c d ∧ l'.log.pages = l.log.pages ++ [l.log.buf] ∧ l.log.buf ≠ []) := by
    rcases data_step hok hv e with ⟨h1, h2⟩ | ⟨h1, h2, h3⟩
    · rcases l3 with ⟨m1, -⟩ | ⟨m1, m2, m3⟩
      · exact Or.inl ⟨h1, m1⟩
      · exact absurd m2 (h2 m1).2
    · rcases l3 with ⟨m1, m2⟩ | ⟨m1, m2, m3, m4⟩
      · obtain ⟨q1, q2⟩ := m2 h2
        exact absurd (h3 q1) q2
      · exact Or.inr ⟨h2, h1, m3, m4⟩
  have hnext' := T'.tab.sim.next
  have hnext := I.tab.tab.sim.next
  have hmin := I.tab.tab.sim.amin
  have hsum := I.tab.inv.sum0 (I.tab.inv.wrap.resolve_right id)
  have hsum' := T'.inv.sum0 (T'.inv.wrap.resolve_right id)
  refine ⟨g', ⟨T', I.spl, ?_, ?_, l2, ?_, s6, ?_, ?_, fun k h1 h2 => I.lift k h1 fun r hr => h2 r (l1 r hr).1⟩, s3, l1, ?_⟩
  · have := I.old
    rcases hdata with ⟨-, h⟩ | ⟨-, -, h, -⟩ <;> rw [h]
    · exact this
    · rw [List.length_append]; omega
  · rcases hdata with ⟨h1, h2⟩ | ⟨h1, h2, h3, h4⟩
    · exact (I.jr.congr h1).pages_eq h2
    · have J := I.jr.sealed hok I.tab.tab.room hnext I.tab.tab.sim.buf (by have := hB.pages; have := A.pages; omega) h4 I.tab.tab.cap.2
      exact (J.congr (d' := d') (by rw [h2]; rfl)).pages_eq h3
  · have := A.pages; omega
  · obtain ⟨ps, g1, g2, g3, g4⟩ := (Grow.step hok hv e).grow (by omega) hsum
    intro ph p hp
    rw [g3] at hp
    unfold placed at hp
    split_ifs at hp with h1
    · have := g4 (ph - v.next) (by omega)
      rw [List.getElem?_eq_getElem (by omega)] at hp
      have hpq := Option.some.inj hp
      rw [hpq] at this
      have hm := hv.mem
      have : c.numVar < 2 ^ 32 := lt_of_le_of_lt (Nat.le_mul_of_pos_right _ (by have := hv.ps; have := hv.cap4; omega)) hm
      show vid p = ph
      rw [‹vid p = _›, show v.next + (ph - v.next) = ph by omega, Nat.mod_eq_of_lt (by omega)]
    · exact I.ids ph p hp
  · refine I.noErase.imp id (fun hno => ?_)
    intro hn ev hev a b
    rcases hdata with ⟨h1, h2⟩ | ⟨h1, h2, h3, -⟩
    · rw [h1] at hev
      refine hno ?_ ev hev a b
      rw [hnext, ← h2, ← hnext']; exact hn
    · have hr := I.tab.tab.room.sum
      have hx : d'.next = d.next + 1 := by rw [hnext', h3, List.length_append, List.length_singleton, hnext]
      rw [h2] at hev
      unfold outDev at hev
      simp only [if_neg (show ¬ d.avail = 0 by omega), List.append_nil] at hev
      rcases List.mem_append.mp hev with h | h
      · exact hno (by omega) ev h a b
      · rw [List.mem_singleton.mp h]; simp
  · rcases hdata with h | ⟨h1, h2, h3, -⟩
    · exact Or.inl h
    · exact Or.inr ⟨h1, h2, h3⟩

end

end EDB
