import Verif.Props.Rings
import Verif.Props.VarWrap
import Verif.Proofs.VarKept

/-!
# C69: variable data after a power failure, the variable data file having wrapped

The client works on a new table as in C28; then the power fails (between two operations, or inside one), and the table is opened again.  From
then on the client only reads.
-/

namespace EDB

open Spec (Log VLog VOp VOut Rec)

section
variable {c : Cfg} {lo lv K m mn w : Nat} {M : Mode} {d : Data} {v : Var} {l : VLog} {L : Log} {g : Gh}

/-- The pages that are given up are those below `firstRead`. -/
theorem VTableM.givenUp (hv : c.VFile) (hid : c.eraseFx = id) (T : VTableM c lo lv K m M d v l g) (hM : M)
    (R : VarRing c (LRing c.numVar c.B True) v) {e : Ent} (he : e ∈ g.es) :
    Spec.GivenUp c.keySize c.numVar c.B v.dev.log e.key ↔ e.a / c.vcap < firstRead c.numVar c.B v.next := by
  have hn := R.2.count
  have hB0 := hv.B0
  have htwo := hv.two
  unfold Spec.GivenUp firstRead
  rw [hn]
  by_cases hz : Spec.firstKept c.numVar c.B v.next = 0
  · rw [if_pos hz, hz]
    exact ⟨fun h => absurd h.1 (Nat.lt_irrefl 0), fun h => absurd h (Nat.not_lt_zero _)⟩
  rw [if_neg hz]
  have hlt : Spec.firstKept c.numVar c.B v.next < v.next := by
    have := Nat.mod_lt v.next hB0
    unfold Spec.firstKept at hz ⊢
    split_ifs at hz ⊢ <;> omega
  have hvm := base_le_kept hv T.inv R
  obtain ⟨⟨ph, p⟩, hx⟩ : ∃ y, (Spec.writes v.dev.log)[Spec.firstKept c.numVar c.B v.next]? = some y :=
    ⟨_, List.getElem?_eq_getElem (by omega)⟩
  obtain ⟨h1, h2⟩ := R.2.keeps hB0 hv.dvd hv.nv hid hx (le_refl _)
  rw [← R.1] at h2
  obtain ⟨q, q1, -, q3⟩ := T.inv.sim.stored _ hvm hlt
  rw [h2] at q1
  cases q1
  obtain ⟨-, z⟩ := (T.inv.keys hM).pages _ hlt
  have hkey : leNat (rd p 4 c.keySize) = g.ks.getD (Spec.firstKept c.numVar c.B v.next) 0 := q3
  constructor
  · rintro ⟨-, ph', p', y1, y2⟩
    rw [hx] at y1
    cases y1
    rw [hkey] at y2
    have := (z e he).mpr y2
    omega
  · intro h
    refine ⟨by omega, ph, p, hx, ?_⟩
    rw [hkey]
    exact (z e he).mp (by omega)

theorem ReTab.reads (hok : c.Ok K) (hv : c.VFile) {P : Nat} (hB : Bounds c lo K P) (h128 : c.maxRec ≤ 128) (x : Idx) :
    ∀ (ops : List VOp) (d : Data) (v : Var), ReTab c lo K mn w g d v L → d.next ≤ P → ClientV c lo K ops → (∀ op ∈ ops, ReadOnly op) →
    ∃ d' v', runOpsV c d x v ops = .ok (d', x, v') ∧ ReTab c lo K mn w g d' v' L ∧ d'.next = d.next := by
  intro ops
  induction ops with
  | nil => intro d v T _ _ _; exact ⟨d, v, rfl, T, rfl⟩
  | cons op ops ih =>
    intro d v T hP C hR
    have hop := hR op (by simp)
    cases op with
    | put k a b => exact absurd hop (fun h => h)
    | flush => exact absurd hop (fun h => h)
    | get k =>
      obtain ⟨d1, r, out, e, T1, n1, -⟩ := T.get hok hB hP x (C.get k (by simp))
      obtain ⟨d', v', e', T', n'⟩ := ih d1 v T1 (by omega) C.tail (fun op h => hR op (List.mem_cons_of_mem _ h))
      exact ⟨d', v', by simp only [runOpsV, e, Res.ok_bind]; exact e', T', by omega⟩
    | getVar k =>
      obtain ⟨d1, v1, r, out, bs, e, T1, n1, -⟩ := T.getVar hok hv hB h128 hP x (C.getVar k (by simp))
      obtain ⟨d', v', e', T', n'⟩ := ih d1 v1 T1 (by omega) C.tail (fun op h => hR op (List.mem_cons_of_mem _ h))
      exact ⟨d', v', by simp only [runOpsV, e, Res.ok_bind]; exact e', T', by omega⟩

/-- Codes and bytes as the specification has them. -/
theorem CutAt.answer (hv : c.VFile) (hid : c.eraseFx = id) {P n : Nat} {D V : Dev} {pages : List (List Rec)}
    (H : CutAt c lo K P g D V pages n) {k : Nat}
    {r : Int} {out bs : Option (List Byte)} {es : List Rec} {var : Nat → Option (List Byte)} (hvars : ∀ e ∈ g.es, var e.key = some e.bs)
    (hnovar : ∀ r ∈ es, (∀ e ∈ g.es, e.key ≠ r.1) → var r.1 = none) (hsort : es.Pairwise (fun r s => r.1 < s.1))
    (h : match Spec.lookup es k with
       | none => r = -1 ∧ out = none ∧ bs = none
       | some a => out = some a ∧ VarAns c ⟨firstRead c.numVar c.B n, g.s, g.ks, g.es⟩ k r bs ∧
          ∀ e ∈ g.es, e.key = k → e.fin ≤ w * c.vcap) :
    Spec.KeptAnswer es var (Spec.GivenUp c.keySize c.numVar c.B V.log) k (.gotVar r out bs) := by
  unfold Spec.KeptAnswer
  cases hl : Spec.lookup es k with
  | none =>
    rw [hl] at h
    obtain ⟨rfl, rfl, rfl⟩ := h
    rfl
  | some a =>
    rw [hl] at h
    obtain ⟨rfl, h, -⟩ := h
    simp only
    have hmem := (lookup_eq_some hsort).mp hl
    rcases h with ⟨rfl, rfl, h⟩ | ⟨e, e1, e2, h⟩
    · have : var k = none := hnovar (k, a) hmem h
      rw [this]
    · have hvar := hvars e e1
      simp only at e1
      rw [e2] at hvar
      rw [hvar]
      have hg := H.givenUp hv hid e1
      rw [e2] at hg
      simp only at h
      rcases h with ⟨h1, rfl, rfl⟩ | ⟨h1, rfl, rfl⟩
      · exact Or.inl ⟨hg.mpr h1, rfl⟩
      · exact Or.inr ⟨fun h => by have := hg.mp h; omega, rfl⟩

/-- Lookups in the table opened again. -/
theorem CutAt.lookups (hok : c.Ok K) (hv : c.VFile) {P n : Nat} (hB : Bounds c lo K P) (h127 : c.maxRec ≤ 127) (hN32 : c.N < 2 ^ 32)
    (hid : c.eraseFx = id) {D V : Dev} {pages : List (List Rec)} (H : CutAt c lo K P g D V pages n) (y : Idx)
    {kept : List Rec} (hkept : kept = (pages.drop (Spec.recovered c.N c.B pages.length)).flatten)
    {var : Nat → Option (List Byte)} (hvars : ∀ e ∈ g.es, var e.key = some e.bs)
    (hnovar : ∀ r ∈ (Log.mk pages []).all, (∀ e ∈ g.es, e.key ≠ r.1) → var r.1 = none) (rb vrb : Page) (sm : Nat → Nat × Nat) (hvf : Bool) :
    ∃ d' v', reopenV c D V rb sm vrb hvf = (d', v', 0) ∧
      ∀ reads, ClientV c lo K reads → (∀ op ∈ reads, ReadOnly op) →
        ∃ d2 y2 v2, runOpsV c d' y v' reads = .ok (d2, y2, v2) ∧ ∀ k < K,
          (∃ d3 y3 v3 r out, stepV c d2 y2 v2 (.get k) = .ok (d3, y3, v3, .got r out) ∧ Spec.Out.got r out = Spec.answer kept k) ∧
          ∃ d3 y3 v3 o, stepV c d2 y2 v2 (.getVar k) = .ok (d3, y3, v3, o) ∧
            Spec.KeptAnswer kept var (Spec.GivenUp c.keySize c.numVar c.B V.log) k o := by
  have hfew := H.fewer
  obtain ⟨d', v', w, e2, e3, -, -, T'⟩ := H.reopened hok hv hB h127 hN32 hid rb vrb sm hvf
  refine ⟨d', v', e2, fun reads hCr hRo => ?_⟩
  obtain ⟨d2, v2, f1, T2, n2⟩ := ReTab.reads hok hv hB (by omega) y reads d' v' T' (by omega) hCr hRo
  refine ⟨d2, y, v2, f1, fun k hk => ?_⟩
  have hlive : (Log.mk pages []).live (Spec.recovered c.N c.B pages.length) = kept := by
    rw [hkept]
    unfold Log.live
    simp
  constructor
  · obtain ⟨d3, r, out, q1, -, -, q2⟩ := T2.get hok hB (by omega) y hk
    rw [hlive] at q2
    exact ⟨d3, y, v2, r, out, q1, q2⟩
  · obtain ⟨d3, v3, r, out, bs, q1, -, -, q2⟩ := T2.getVar hok hv hB (by omega) (by omega) y hk
    rw [hlive] at q2
    refine ⟨d3, y, v3, _, q1, H.answer hv hid hvars ?_ ?_ q2⟩
    · intro r hr
      rw [← hlive] at hr
      exact hnovar r (mem_all_of_live hr)
    · rw [← hlive]
      exact Log_live_sorted T2.tab.sim.sorted _

/-- A single page written does not name key 0, if no key is 0. -/
theorem VTable.notLone (hv : c.VFile) (hlo : 0 < lo) (T : VTable c lo K True d v l g) (h1 : v.next = 1) : ¬ LonePage c v.dev := by
  rintro ⟨-, p, hp, hk⟩
  have hz : vbase c v = 0 := by
    have := T.inv.sim.sum
    have := hv.two
    have := hv.B0
    rcases T.inv.sim.tight with h | h <;> omega
  obtain ⟨q, q1, -, q3⟩ := T.inv.sim.stored 0 (by omega) (by omega)
  rw [Nat.zero_mod, hp] at q1
  cases q1
  obtain ⟨e, e1, e2⟩ := ((T.inv.keys trivial).tops.2 0 (by omega)).resolve_left (Nat.not_lt_zero _)
  obtain ⟨r, r1, r2⟩ := T.known e e1
  have := (T.tab.sim.bound r r1).1
  omega

theorem runOpsV_app {x1 x2 : Idx} {d1 d2 : Data} {v1 v2 : Var} {ops2 : List VOp} : ∀ {ops1 : List VOp} {d : Data} {x : Idx} {v : Var},
    runOpsV c d x v ops1 = .ok (d1, x1, v1) → runOpsV c d1 x1 v1 ops2 = .ok (d2, x2, v2) →
    runOpsV c d x v (ops1 ++ ops2) = .ok (d2, x2, v2) := by
  intro ops1
  induction ops1 with
  | nil => intro d x v h h'; cases h; exact h'
  | cons op ops ih =>
    intro d x v h h'
    simp only [List.cons_append, runOpsV] at h ⊢
    obtain ⟨s, e, h⟩ := Res.bind_eq_ok h
    rw [e]
    exact ih h h'

theorem along_of_mem {G : Data → Var → VOp → Prop} {ops0 : List VOp} (h : ∀ op ∈ ops0, ∀ d v, G d v op) :
    ∀ (ops : List VOp) (d : Data) (x : Idx) (v : Var), (∀ op ∈ ops, op ∈ ops0) → Along c G d x v ops := by
  intro ops
  induction ops with
  | nil => intro d x v _; exact trivial
  | cons op ops ih =>
    intro d x v hm
    exact ⟨h op (hm op (by simp)) d v, fun d' x' v' o _ => ih d' x' v' (fun op h => hm op (List.mem_cons_of_mem _ h))⟩

theorem along_init {G : Data → Var → VOp → Prop} {rest : List VOp} :
    ∀ {ops : List VOp} {d : Data} {x : Idx} {v : Var}, Along c G d x v (ops ++ rest) → Along c G d x v ops := by
  intro ops
  induction ops with
  | nil => intro d x v _; exact trivial
  | cons op ops ih => intro d x v h; exact ⟨h.1, fun d' x' v' o e => ih (h.2 d' x' v' o e)⟩

theorem fresh_journal (rb : Page) (sm : Nat → Nat × Nat) : Journal c (Data.fresh c rb sm) Log.empty :=
  ⟨GoodLog.nil, rfl, rfl⟩

theorem ring_run {ops : List VOp} {rb vrb : Page} {sm : Nat → Nat × Nat} {hvf : Bool} {x x' : Idx} (hv : c.VFile)
    (h : runOpsV c (Data.fresh c rb sm) x (Var.fresh c vrb hvf) ops = .ok (d, x', v)) : VarRing c (LRing c.numVar c.B True) v :=
  VarRing.calls (s := ⟨Data.fresh c rb sm, x, Var.fresh c vrb hvf⟩) ⟨hv.B0, fun h ha p hp => h.write ha p hp, fun h => h.erase⟩
    (VarRing.start .nil vrb hvf) (Calls.ofOpsV ops _ _ _ _ _ _ _ (Calls.none _) h)

end

/-- C69 (`_partial`: the conditions of C28 on the states before the power failure; the power fails between two operations and
reading follows; the data file has not wrapped or the error bound of the spline is at most 1; not a single variable page that
names key 0).  The table can be opened again, and after any lookups every lookup gives: the records on the data pages written,
of those the data file keeps; and with a record its variable data exactly as it was inserted, or (if given up) code 1. -/
theorem C69_reads_partial (c : Cfg) (lo K : Nat) (ops : List VOp) (rb vrb rb' vrb' : Page) (sm sm' : Nat → Nat × Nat) (hvf hvf' : Bool)
    (x x' y : Idx) (hok : c.Ok K) (hv : c.VFile) (hid : c.eraseFx = id) (hB : Bounds c lo K (ops.length + 1)) (h127 : c.maxRec ≤ 127)
    (hN32 : c.N < 2 ^ 32) (hC : ClientV c lo K ops)
    (hS : Along c (CacheFree c) (Data.fresh c rb sm) x (Var.fresh c vrb hvf) ops)
    (hW : Along c (WrapSafe c) (Data.fresh c rb sm) x (Var.fresh c vrb hvf) ops)
    (hR : Along c (CleanRead c) (Data.fresh c rb sm) x (Var.fresh c vrb hvf) ops)
    (hidx : IdxSafe c (Data.fresh c rb sm) x (Var.fresh c vrb hvf) ops)
    (d : Data) (v : Var) (hrun : runOpsV c (Data.fresh c rb sm) x (Var.fresh c vrb hvf) ops = .ok (d, x', v))
    (hspl : d.next ≤ c.N ∨ c.maxErr ≤ 1) (h32 : v.next + 1 < 2 ^ 32) (hV : v.next = 1 → ¬ LonePage c v.dev) (l : VLog)
    (hl : l = Spec.vlogAfter c.maxRec VLog.empty (historyV c (Data.fresh c rb sm) x (Var.fresh c vrb hvf) ops)) (kept : List Rec)
    (hkept : kept = (l.log.pages.drop (Spec.recovered c.N c.B l.log.pages.length)).flatten) :
    ∃ d' v', reopenV c d.dev v.dev rb' sm' vrb' hvf' = (d', v', 0) ∧
      ∀ reads, ClientV c lo K reads → (∀ op ∈ reads, ReadOnly op) →
        ∃ d2 y2 v2, runOpsV c d' y v' reads = .ok (d2, y2, v2) ∧ ∀ k < K,
          (∃ d3 y3 v3 r out, stepV c d2 y2 v2 (.get k) = .ok (d3, y3, v3, .got r out) ∧ Spec.Out.got r out = Spec.answer kept k) ∧
          ∃ d3 y3 v3 o, stepV c d2 y2 v2 (.getVar k) = .ok (d3, y3, v3, o) ∧
            Spec.KeptAnswer kept l.var (Spec.GivenUp c.keySize c.numVar c.B v.dev.log) k o := by
  obtain ⟨d0, x0, v0, g, e1, T, t1, -, -, -, -, -, -, -, J⟩ := reachX_with (E := True) hok hv (by omega) (fun _ => hid) ops [] hB (by omega) rb vrb sm hvf
    x 0 (by rw [List.append_nil]; exact hC) (Or.inl trivial) (Or.inr (by rw [List.append_nil]; exact hS))
    (fun _ => by rw [List.append_nil]; exact hW) (by rw [List.append_nil]; exact hR) (fun _ h => h)
    (by rw [List.append_nil]; exact hidx) (J := fun d _ l => Journal c d l.log) (fresh_journal rb sm)
    (fun d x v op d' x' v' o l g l' g' _ _ J hP T _ hobs e => T.journal hok hv J (by have := hB.pages; omega) hobs e)
  rw [hrun] at e1
  simp only [Res.ok.injEq, Prod.mk.injEq] at e1
  obtain ⟨rfl, rfl, rfl⟩ := e1
  rw [← hl] at T J
  have R := ring_run hv hrun
  refine (T.cutNow hok hB hid trivial (T.min_le hok) J (by omega) hspl R h32 hV).lookups hok hv hB h127 hN32 hid y hkept T.vars ?_ rb' vrb' sm' hvf'
  intro r hr
  refine T.novar r (mem_live.mpr ?_)
  unfold Log.all at hr
  rw [List.append_nil] at hr
  obtain ⟨p, p1, p2⟩ := List.mem_flatten.mp hr
  obtain ⟨n, n1, rfl⟩ := List.mem_iff_getElem.mp p1
  exact Or.inl ⟨n, n1, Nat.zero_le _, p2⟩

/-- C69 if the power fails inside an operation `op`, at any of its storage operations (`_partial`: the conditions of
`C69_reads_partial`, also for this operation; not inside a flush, see `C30_false_flush`).  Now the records are those on the data
pages written when the power failed: the pages before the operation, and the one the operation completes if it was written. -/
theorem C69_crash_partial (c : Cfg) (lo K : Nat) (ops : List VOp) (rb vrb rb' vrb' : Page) (sm sm' : Nat → Nat × Nat) (hvf hvf' : Bool)
    (x x' y : Idx) (hok : c.Ok K) (hv : c.VFile) (hid : c.eraseFx = id) (hB : Bounds c lo K (ops.length + 2)) (h127 : c.maxRec ≤ 127)
    (hN32 : c.N < 2 ^ 32) (op : VOp) (hop : op ≠ .flush) (hC : ClientV c lo K (ops ++ [op]))
    (hS : Along c (CacheFree c) (Data.fresh c rb sm) x (Var.fresh c vrb hvf) (ops ++ [op]))
    (hW : Along c (WrapSafe c) (Data.fresh c rb sm) x (Var.fresh c vrb hvf) (ops ++ [op]))
    (hR : Along c (CleanRead c) (Data.fresh c rb sm) x (Var.fresh c vrb hvf) (ops ++ [op]))
    (hidx : IdxSafe c (Data.fresh c rb sm) x (Var.fresh c vrb hvf) (ops ++ [op]))
    (d : Data) (v : Var) (hrun : runOpsV c (Data.fresh c rb sm) x (Var.fresh c vrb hvf) ops = .ok (d, x', v))
    (D V : Dev) (hf : PowerFail c d x' v op D V)
    (hspl : (Spec.writes D.log).length ≤ c.N ∨ c.maxErr ≤ 1)
    (h32 : (Spec.writes V.log).length + 1 < 2 ^ 32) (hV : (Spec.writes V.log).length = 1 → ¬ LonePage c V) (l : VLog)
    (hl : l = Spec.vlogAfter c.maxRec VLog.empty (historyV c (Data.fresh c rb sm) x (Var.fresh c vrb hvf) ops)) (pages : List (List Rec))
    (hpages : pages = (l.log.pages ++ [l.log.buf]).take (Spec.writes D.log).length) (kept : List Rec)
    (hkept : kept = (pages.drop (Spec.recovered c.N c.B pages.length)).flatten) :
    ∃ d' v', reopenV c D V rb' sm' vrb' hvf' = (d', v', 0) ∧
      ∀ reads, ClientV c lo K reads → (∀ op ∈ reads, ReadOnly op) →
        ∃ d2 y2 v2, runOpsV c d' y v' reads = .ok (d2, y2, v2) ∧ ∀ k < K,
          (∃ d3 y3 v3 r out, stepV c d2 y2 v2 (.get k) = .ok (d3, y3, v3, .got r out) ∧ Spec.Out.got r out = Spec.answer kept k) ∧
          ∃ d3 y3 v3 o, stepV c d2 y2 v2 (.getVar k) = .ok (d3, y3, v3, o) ∧
            Spec.KeptAnswer kept l.var (Spec.GivenUp c.keySize c.numVar c.B V.log) k o := by
  obtain ⟨d0, x0, v0, g, e1, T, t1, C1, gt1, -, cf1, ws1, cr1, -, J⟩ := reachX_with (E := True) hok hv (by omega) (fun _ => hid) ops [op] hB (by omega)
    rb vrb sm hvf x 0 hC (Or.inl trivial) (Or.inr hS) (fun _ => hW) hR (fun _ h => h) hidx
    (J := fun d _ l => Journal c d l.log) (fresh_journal rb sm)
    (fun d x v op d' x' v' o l g l' g' _ _ J hP T _ hobs e => T.journal hok hv J (by have := hB.pages; omega) hobs e)
  rw [hrun] at e1
  simp only [Res.ok.injEq, Prod.mk.injEq] at e1
  obtain ⟨rfl, rfl, rfl⟩ := e1
  rw [← hl] at T J gt1
  obtain ⟨d1, x1, v1, l1, g1, o1, s1, -, -, ⟨t, s2, -⟩, -, -, s3⟩ := T.stepX hok (Or.inl rfl) hv hB (by omega) x' (by omega) C1 C1.low gt1
    (fun hc => cf1.head hok T hc) (fun _ => (ws1 trivial).1) (fun h => absurd h hop) (m := 0) (Or.inl trivial)
  obtain ⟨T1, -⟩ := s3 (fun k h => by subst h; exact cr1.1)
  obtain ⟨pages', H, hp, -⟩ := T.cutIn hok hv hB hid trivial (T.min_le hok) J (by omega) (ring_run hv hrun) (fun {l0 d' z' v' o} hr e =>
      VarRing.calls (s := ⟨d, x', v⟩) (t := ⟨d', z', v'⟩) (ring_rule hv l0) hr (Calls.ofOpsV [op] _ _ _ _ _ _ _ (Calls.none _) (by
        simp only [runOpsV, e, Res.ok_bind]))) (fun k a b h => (ws1 trivial).1) hop hf s1 T1 ⟨t, s2⟩ hspl h32 hV
  rw [← hpages] at hp
  subst hp
  refine H.lookups hok hv hB h127 hN32 hid y hkept T.vars ?_ rb' vrb' sm' hvf'
  intro r hr
  refine T.novar r (mem_live.mpr ?_)
  unfold Log.all at hr
  rw [List.append_nil, hpages] at hr
  obtain ⟨p, p1, p2⟩ := List.mem_flatten.mp hr
  rcases List.mem_append.mp (List.mem_of_mem_take p1) with p1 | p1
  · obtain ⟨n, n1, rfl⟩ := List.mem_iff_getElem.mp p1
    exact Or.inl ⟨n, n1, Nat.zero_le _, p2⟩
  · rw [List.mem_singleton] at p1
    exact Or.inr (p1 ▸ p2)

/-- C69, which of the two answers (`_partial`: the same conditions).  A record is inserted with variable data `b`, which starts
on variable page number `first`.  Whatever follows (`ops2`), if the record is kept when the power fails: the data is given up
exactly if the oldest page counted as stored is not the first page ever, and `first` is that page or an older one. -/
theorem C69_exact_partial (c : Cfg) (lo K : Nat) (ops1 ops2 : List VOp) (k : Nat) (a b : List Byte) (rb vrb rb' vrb' : Page)
    (sm sm' : Nat → Nat × Nat) (hvf hvf' : Bool) (x x1 x1' x' y : Idx) (hok : c.Ok K) (hv : c.VFile) (hid : c.eraseFx = id)
    (hB : Bounds c lo K (ops1.length + ops2.length + 2)) (h127 : c.maxRec ≤ 127) (hN32 : c.N < 2 ^ 32)
    (hC : ClientV c lo K (ops1 ++ .put k a (some b) :: ops2))
    (hS : Along c (CacheFree c) (Data.fresh c rb sm) x (Var.fresh c vrb hvf) (ops1 ++ .put k a (some b) :: ops2))
    (hW : Along c (WrapSafe c) (Data.fresh c rb sm) x (Var.fresh c vrb hvf) (ops1 ++ .put k a (some b) :: ops2))
    (hR : Along c (CleanRead c) (Data.fresh c rb sm) x (Var.fresh c vrb hvf) (ops1 ++ .put k a (some b) :: ops2))
    (hidx : IdxSafe c (Data.fresh c rb sm) x (Var.fresh c vrb hvf) (ops1 ++ .put k a (some b) :: ops2))
    (d1 d1' d : Data) (v1 v1' v : Var) (h1 : runOpsV c (Data.fresh c rb sm) x (Var.fresh c vrb hvf) ops1 = .ok (d1, x1, v1))
    (h2 : stepV c d1 x1 v1 (.put k a (some b)) = .ok (d1', x1', v1', .code 0))
    (h3 : runOpsV c d1' x1' v1' ops2 = .ok (d, x', v))
    (hspl : d.next ≤ c.N ∨ c.maxErr ≤ 1) (h32 : v.next + 1 < 2 ^ 32) (hV : v.next = 1 → ¬ LonePage c v.dev) (l : VLog)
    (hl : l = Spec.vlogAfter c.maxRec VLog.empty
      (historyV c (Data.fresh c rb sm) x (Var.fresh c vrb hvf) (ops1 ++ .put k a (some b) :: ops2))) (kept : List Rec)
    (hkept : kept = (l.log.pages.drop (Spec.recovered c.N c.B l.log.pages.length)).flatten) (hret : Spec.lookup kept k = some a)
    (first : Nat) (hfirst : first = (preVar c d1 v1).next) :
    ∃ d' v', reopenV c d.dev v.dev rb' sm' vrb' hvf' = (d', v', 0) ∧
      ∀ reads, ClientV c lo K reads → (∀ op ∈ reads, ReadOnly op) →
        ∃ d2 y2 v2 d3 y3 v3, runOpsV c d' y v' reads = .ok (d2, y2, v2) ∧
          stepV c d2 y2 v2 (.getVar k) = .ok (d3, y3, v3,
            if 0 < Spec.firstKept c.numVar c.B v.next ∧ first ≤ Spec.firstKept c.numVar c.B v.next then .gotVar 1 (some a) none
            else .gotVar 0 (some a) (some b)) := by
  have h128 : c.maxRec ≤ 128 := by omega
  have hrun : runOpsV c (Data.fresh c rb sm) x (Var.fresh c vrb hvf) (ops1 ++ .put k a (some b) :: ops2) = .ok (d, x', v) := by
    refine runOpsV_app h1 ?_
    simp only [runOpsV, h2, Res.ok_bind]
    exact h3
  have hlen : (ops1 ++ VOp.put k a (some b) :: ops2).length + 1 = ops1.length + ops2.length + 2 := by
    rw [List.length_append, List.length_cons]; omega
  obtain ⟨d', v', e2, hall⟩ := C69_reads_partial c lo K _ rb vrb rb' vrb' sm sm' hvf hvf' x x' y hok hv hid (by rw [hlen]; exact hB) h127 hN32 hC hS hW hR hidx
    d v hrun hspl h32 hV l hl kept hkept
  refine ⟨d', v', e2, fun reads hCr hRo => ?_⟩
  obtain ⟨d2, y2, v2, f1, f2⟩ := hall reads hCr hRo
  obtain ⟨-, d3, y3, v3, o, f3, f4⟩ := f2 k (by have := (hC.put k a (some b) (by simp)).2.1; omega)
  refine ⟨d2, y2, v2, d3, y3, v3, f1, ?_⟩
  rw [f3]
  -- the entry
  obtain ⟨e1, y1, w1, g1, j1, T1, n1, C1, gt1, -, cf1, ws1, cr1, ix1⟩ := reachX_ok (E := True) hok hv h128 (fun _ => hid) ops1
    (.put k a (some b) :: ops2) hB (by omega) rb vrb sm hvf x 0 hC (Or.inl trivial) (Or.inr hS) (fun _ => hW) hR hidx
  rw [h1] at j1
  simp only [Res.ok.injEq, Prod.mk.injEq] at j1
  obtain ⟨rfl, rfl, rfl⟩ := j1
  obtain ⟨e2', y2', w2, l2, g2, o2, s1, s2, -, -, -, s3, s4⟩ := T1.stepX hok (Or.inl rfl) hv hB h128 _ (by omega) C1 C1.low gt1
    (fun hc => cf1.head hok T1 hc) (fun _ => (ws1 trivial).1) (by simp) (m := 0) (Or.inl trivial)
  rw [h2] at s1
  simp only [Res.ok.injEq, Prod.mk.injEq] at s1
  obtain ⟨rfl, rfl, rfl, rfl⟩ := s1
  obtain ⟨T2, n2, gt2, -⟩ := s4 (fun k h => by cases h)
  obtain ⟨⟨e, m1, m2, m3, m4⟩, -⟩ := s3 k a b rfl rfl
  have cf2 := cf1.step hok T1 T2 s2 h2
  have ws2 := (ws1 trivial).2 _ _ _ _ h2
  have cr2 := cr1.2 _ _ _ _ h2
  have ix2 := ix1.2 _ _ _ _ h2
  obtain ⟨e3, y3', w3, g3, r1, -, ⟨t, ht⟩, T3, -⟩ := runOpsVX_with (E := True) hok (Or.inl rfl) hv hB h128
    (G := fun d x v ops => CacheOk c d x v ops ∧ Along c (WrapSafe c) d x v ops ∧ Along c (CleanRead c) d x v ops ∧ IdxSafe c d x v ops)
    (fun d v l g x op ops hg T hc => hg.1.head hok T hc)
    (fun d x v op ops hg _ => hg.2.1.1)
    (fun d x v k ops hg => hg.2.2.1.1)
    (fun d x v ops hg => hg.2.2.2.1 rfl)
    (fun d x v op ops d' x' v' o l g l' g' hg T T' hobs e => ⟨hg.1.step hok T T' hobs e, hg.2.1.2 _ _ _ _ e, hg.2.2.1.2 _ _ _ _ e, hg.2.2.2.2 _ _ _ _ e⟩)
    (J := fun _ _ _ => True) (fun _ _ _ _ _ _ _ _ _ _ _ _ _ _ _ _ _ _ _ _ _ => trivial) [] 0 ops2 _ _ _ _ g2 T2 (by omega) (by rw [List.append_nil]; exact C1.tail) (by rw [List.append_nil]; exact C1.tail.low) (by rw [List.append_nil]; exact gt2) (Or.inl trivial)
    (by rw [List.append_nil]; exact ⟨cf2, ws2, cr2, ix2⟩) trivial
  rw [h3] at r1
  simp only [Res.ok.injEq, Prod.mk.injEq] at r1
  obtain ⟨rfl, rfl, rfl⟩ := r1
  have hl' : l = Spec.vlogAfter c.maxRec l2 (historyV c d1' x1' v1' ops2) := by
    rw [hl, history_split _ _ _ _ _ h1, vlogAfter_append, historyV]
    simp only [h2]
    rcases s2 with ⟨-, rfl⟩ | ⟨h, -⟩
    · rfl
    · cases h
  rw [← hl'] at T3
  have hmem : e ∈ g3.es := by rw [ht]; exact List.mem_append_left _ m1
  have hvar := T3.vars e hmem
  have hgiven := VTableM.givenUp hv hid T3 trivial (ring_run hv hrun) hmem
  rw [m2] at hvar hgiven
  rw [m4, ← hfirst] at hgiven
  rw [m3] at hvar
  unfold Spec.KeptAnswer at f4
  rw [hret] at f4
  simp only [hvar] at f4
  have hiff : Spec.GivenUp c.keySize c.numVar c.B v.dev.log k ↔
      0 < Spec.firstKept c.numVar c.B v.next ∧ first ≤ Spec.firstKept c.numVar c.B v.next := by
    rw [hgiven]
    unfold firstRead
    split_ifs <;> omega
  rcases f4 with ⟨q, rfl⟩ | ⟨q, rfl⟩
  · rw [if_pos (hiff.mp q)]
  · rw [if_neg (fun h => q (hiff.mpr h))]

/-- C69 for a client that inserts and flushes before the power fails, without conditions on the states in between: all keys are
at least 1 and every record is inserted with variable data (of any length, also 0).  Every record inserted that the data file
keeps is found, its variable data is exact or given up. -/
theorem C69_inserts_partial (c : Cfg) (lo K : Nat) (puts : List VOp) (rb vrb rb' vrb' : Page) (sm sm' : Nat → Nat × Nat) (hvf hvf' : Bool)
    (x x' y : Idx) (hok : c.Ok K) (hv : c.VFile) (hid : c.eraseFx = id) (hB : Bounds c lo K (puts.length + 2)) (h127 : c.maxRec ≤ 127)
    (hN32 : c.N < 2 ^ 32) (hlo : 0 < lo) (hC : ClientV c lo K (puts ++ [.flush])) (hputs : ∀ op ∈ puts, PutsData op)
    (hidx : IdxSafe c (Data.fresh c rb sm) x (Var.fresh c vrb hvf) (puts ++ [.flush]))
    (d : Data) (v : Var) (hrun : runOpsV c (Data.fresh c rb sm) x (Var.fresh c vrb hvf) (puts ++ [.flush]) = .ok (d, x', v))
    (hspl : d.next ≤ c.N ∨ c.maxErr ≤ 1) (h32 : v.next + 1 < 2 ^ 32) (l : VLog)
    (hl : l = Spec.vlogAfter c.maxRec VLog.empty (historyV c (Data.fresh c rb sm) x (Var.fresh c vrb hvf) (puts ++ [.flush]))) (kept : List Rec)
    (hkept : kept = (l.log.pages.drop (Spec.recovered c.N c.B l.log.pages.length)).flatten) :
    ∃ d' v', reopenV c d.dev v.dev rb' sm' vrb' hvf' = (d', v', 0) ∧
      ∀ reads, ClientV c lo K reads → (∀ op ∈ reads, ReadOnly op) →
        ∃ d2 y2 v2, runOpsV c d' y v' reads = .ok (d2, y2, v2) ∧ ∀ k < K,
          (∃ d3 y3 v3 r out, stepV c d2 y2 v2 (.get k) = .ok (d3, y3, v3, .got r out) ∧ Spec.Out.got r out = Spec.answer kept k) ∧
          ∃ d3 y3 v3 o, stepV c d2 y2 v2 (.getVar k) = .ok (d3, y3, v3, o) ∧
            Spec.KeptAnswer kept l.var (Spec.GivenUp c.keySize c.numVar c.B v.dev.log) k o := by
  have hpc : pageCount (Data.fresh c rb sm).wbuf = 0 := by
    have := congrArg List.length (recs_init c)
    rw [recs_length] at this
    exact this
  obtain ⟨h1, h2⟩ := phase_along hok hv hid hB (by omega) hlo [] (fun op h => by cases h) puts (Data.fresh c rb sm) x (Var.fresh c vrb hvf) VLog.empty
    ⟨0, [], [], []⟩ (fresh_vtable hok hv (fun _ => hid) rb vrb sm hvf) (by simp [Data.fresh]) hC hputs (by simp [VLog.empty, Log.all, Log.empty])
    (fresh_vph hv vrb hvf) rfl (Or.inr rfl) (by omega) (fun h => absurd rfl h) hidx
  have h3 : Along c (CleanRead c) (Data.fresh c rb sm) x (Var.fresh c vrb hvf) (puts ++ [.flush]) := by
    refine along_of_mem (fun op hop d v => ?_) _ _ _ _ (fun _ h => h)
    rcases List.mem_append.mp hop with h | h
    · cases op with
      | put k a b => exact trivial
      | flush => exact trivial
      | get k => exact absurd (hputs _ h) (fun h => h)
      | getVar k => exact absurd (hputs _ h) (fun h => h)
    · rw [List.mem_singleton] at h
      subst h
      exact trivial
  have hlen : (puts ++ [VOp.flush]).length + 1 = puts.length + 2 := by
    rw [List.length_append, List.length_singleton]
  refine C69_reads_partial c lo K _ rb vrb rb' vrb' sm sm' hvf hvf' x x' y hok hv hid (by rw [hlen]; exact hB) h127 hN32 hC h2 h1 h3 hidx d v hrun hspl h32
    (fun hv1 => ?_) l hl kept hkept
  obtain ⟨d0, x0, v0, g, e1, T, -⟩ := reachX_ok (E := True) hok hv (by omega) (fun _ => hid) (puts ++ [.flush]) [] hB
    (by rw [List.length_append, List.length_singleton]; omega) rb vrb sm hvf x 0 (by rw [List.append_nil]; exact hC) (Or.inl trivial)
    (Or.inr (by rw [List.append_nil]; exact h2)) (fun _ => by rw [List.append_nil]; exact h1) (by rw [List.append_nil]; exact h3)
    (by rw [List.append_nil]; exact hidx)
  rw [hrun] at e1
  simp only [Res.ok.injEq, Prod.mk.injEq] at e1
  obtain ⟨rfl, rfl, rfl⟩ := e1
  exact T.notLone hv hlo hv1

/-! ### The hypotheses are satisfiable -/

/-- The five inserts of `demoWPuts` and a flush, the power failure, lookups. -/
def demoKept (reads : List VOp) : Option (List (Option VOut)) :=
  match runOpsV demoW demoW0 noIdx demoVarW0 (demoWPuts ++ [.flush]) with
  | .ok (d, x, v) =>
    match reopenV demoW d.dev v.dev (fun _ => 0) (fun _ => (0, 0)) (fun _ => 0) false with
    | (d', v', 0) => some ((historyV demoW d' x v' reads).map Prod.snd)
    | _ => none
  | _ => none

/-- The hypotheses of `C69_inserts_partial` (the file of four variable pages has wrapped), … -/
example : demoW.Ok 1000 ∧ demoW.VFile ∧ demoW.eraseFx = id ∧ Bounds demoW 1 1000 (demoWPuts.length + 2) ∧ demoW.maxRec ≤ 127 ∧ demoW.N < 2 ^ 32 ∧
    ClientV demoW 1 1000 (demoWPuts ++ [.flush]) ∧ (∀ op ∈ demoWPuts, PutsData op) ∧
    IdxSafe demoW demoW0 noIdx demoVarW0 (demoWPuts ++ [.flush]) ∧
    ((runOpsV demoW demoW0 noIdx demoVarW0 (demoWPuts ++ [.flush])).check fun s =>
      decide (s.1.next ≤ demoW.N ∧ s.2.2.next = 5 ∧ s.2.2.next + 1 < 2 ^ 32 ∧ demoW.numVar < s.2.2.next)) = true :=
  ⟨demoW_ok _, demoW_vok, rfl, demoW_bounds (by decide) (by decide), by decide, by decide, clientVB_ok (by decide +kernel), demoW_puts,
    idxSafe_plain rfl _ _ _ _, by decide +kernel⟩

/-- … hence those of `C69_reads_partial` and (with `ops1 = [put 1, put 2]`, `ops2 = [put 4, put 5, flush]`) of `C69_exact_partial`, … -/
example : Along demoW (WrapSafe demoW) demoW0 noIdx demoVarW0 (demoWPuts ++ [.flush]) ∧
    Along demoW (CacheFree demoW) demoW0 noIdx demoVarW0 (demoWPuts ++ [.flush]) ∧
    Along demoW (CleanRead demoW) demoW0 noIdx demoVarW0 (demoWPuts ++ [.flush]) := by
  obtain ⟨h1, h2⟩ := phase_along (lo := 1) (demoW_ok 1000) demoW_vok rfl (demoW_bounds (P := 100) (by decide) (by decide)) (by decide) (by decide)
    [] (fun op h => by cases h) demoWPuts demoW0 noIdx demoVarW0 VLog.empty ⟨0, [], [], []⟩
    (fresh_vtable (demoW_ok _) demoW_vok (fun _ => rfl) _ _ _ _) (by decide) (clientVB_ok (by decide +kernel)) demoW_puts
    (by simp [VLog.empty, Log.all, Log.empty]) (fresh_vph demoW_vok _ _) rfl (Or.inr rfl) (fun h => absurd h (by decide)) (fun h => absurd rfl h) (idxSafe_plain rfl _ _ _ _)
  exact ⟨h1, h2, alongB_ok (cleanB_ok (c := demoW)) _ _ _ _ (by decide +kernel)⟩

/-- … and what the lookups observe: the block with page 4 is being filled, page 2 counts as the oldest one and names key 3.  The
data of key 3 is on the medium and was found before the power failure (see the last example of `Props/VarWrap.lean`), but is
given up: "We lose some records, but know for sure we have all records larger than this". -/
example : demoKept demoWReads = some
    [some (.gotVar 1 (some (dat 0)) none), some (.gotVar 1 (some (dat 1)) none), some (.gotVar 1 (some (dat 2)) none),
     some (.gotVar 0 (some (dat 3)) (some (blob 20 30))), some (.gotVar 0 (some (dat 4)) (some (blob 20 40))), some (.gotVar (-1) none none)] := by
  decide +kernel

/-- Four inserts, then one of 30 bytes that reclaims a block; the power fails after `j` of the operations on the variable data
file with the data of this insert. -/
def demoTorn (j : Nat) (Q : Data → Var → Dev → Dev → Bool) : Bool :=
  (runOpsV demoW demoW0 noIdx demoVarW0 (demoWPuts.take 4)).check fun s =>
    (stepV demoW s.1 s.2.1 s.2.2 (.put 5 (dat 4) (some (blob 30 50)))).check fun t =>
      Q s.1 s.2.2 t.1.dev (cutFrom demoW (preVar demoW s.1 s.2.2).dev t.2.2.1.dev j)

/-- The hypotheses of `C69_crash_partial` on the devices: the erase of the first block and one page written after it; before the
insert there were 3 variable pages.  (The power failure is `PowerFail.putAfter`.) -/
example : demoTorn 2 (fun _ v D V => decide ((Spec.writes D.log).length ≤ demoW.N ∧ (Spec.writes V.log).length = 5 ∧ V.log.length = 6 ∧
    v.next = 3)) = true := by
  decide +kernel

/-- … and on the operations. -/
example : ClientV demoW 1 1000 (demoWPuts.take 4 ++ [.put 5 (dat 4) (some (blob 30 50))]) ∧
    Along demoW (WrapSafe demoW) demoW0 noIdx demoVarW0 (demoWPuts.take 4 ++ [.put 5 (dat 4) (some (blob 30 50))]) ∧
    Along demoW (CacheFree demoW) demoW0 noIdx demoVarW0 (demoWPuts.take 4 ++ [.put 5 (dat 4) (some (blob 30 50))]) ∧
    Along demoW (CleanRead demoW) demoW0 noIdx demoVarW0 (demoWPuts.take 4 ++ [.put 5 (dat 4) (some (blob 30 50))]) := by
  have hC : ClientV demoW 1 1000 (demoWPuts.take 4 ++ [.put 5 (dat 4) (some (blob 30 50))]) := clientVB_ok (by decide +kernel)
  obtain ⟨h1, h2⟩ := phase_along (lo := 1) (demoW_ok 1000) demoW_vok rfl (demoW_bounds (P := 100) (by decide) (by decide)) (by decide) (by decide)
    [] (fun op h => by cases h) (demoWPuts.take 4 ++ [.put 5 (dat 4) (some (blob 30 50))]) demoW0 noIdx demoVarW0 VLog.empty ⟨0, [], [], []⟩
    (fresh_vtable (demoW_ok _) demoW_vok (fun _ => rfl) _ _ _ _) (by decide) (clientVB_ok (by decide +kernel)) (fun op h => by
      rcases List.mem_append.mp h with h | h
      · exact demoW_puts op (List.mem_of_mem_take h)
      · rw [List.mem_singleton] at h
        subst h
        exact trivial)
    (by simp [VLog.empty, Log.all, Log.empty]) (fresh_vph demoW_vok _ _) rfl (Or.inr rfl) (fun h => absurd h (by decide)) (fun h => absurd rfl h) (idxSafe_plain rfl _ _ _ _)
  exact ⟨hC, along_init h1, along_init h2, alongB_ok (cleanB_ok (c := demoW)) _ _ _ _ (by decide +kernel)⟩

/-- The lookups after that: key 5 is lost, of keys 1 to 3 the variable data is given up.  If only the erase was carried out, all
is found. -/
example : (demoTorn 2 fun _ _ D V => match reopenV demoW D V (fun _ => 0) (fun _ => (0, 0)) (fun _ => 0) false with
      | (d', v', 0) => decide ((historyV demoW d' noIdx v' demoWReads).map Prod.snd =
        [some (.gotVar 1 (some (dat 0)) none), some (.gotVar 1 (some (dat 1)) none), some (.gotVar 1 (some (dat 2)) none),
         some (.gotVar 0 (some (dat 3)) (some (blob 20 30))), some (.gotVar (-1) none none), some (.gotVar (-1) none none)])
      | _ => false) = true ∧
    (demoTorn 1 fun _ _ D V => match reopenV demoW D V (fun _ => 0) (fun _ => (0, 0)) (fun _ => 0) false with
      | (d', v', 0) => decide ((historyV demoW d' noIdx v' demoWReads).map Prod.snd =
        [some (.gotVar 0 (some (dat 0)) (some (blob 20 0))), some (.gotVar 0 (some (dat 1)) (some (blob 20 10))),
         some (.gotVar 0 (some (dat 2)) (some (blob 20 20))), some (.gotVar 0 (some (dat 3)) (some (blob 20 30))),
         some (.gotVar (-1) none none), some (.gotVar (-1) none none)])
      | _ => false) = true := by
  decide +kernel

end EDB
