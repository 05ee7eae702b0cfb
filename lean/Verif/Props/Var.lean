import Verif.Proofs.VarScan
import Verif.Proofs.DemoVar

/-!
# C26, C27, C29: variable-length data as long as the variable data file has not wrapped
-/

namespace EDB

open Spec (Log VLog VOp VOut)

/-- C26 (`_partial`: see below).  For every configuration of a spline-mode table with variable data (`Cfg.Ok`,
`Cfg.VOk`), every client that offers ascending keys and well-sized data (`ClientV`), every content of uninitialised
memory: as long as the data pages fit into the data file and the variable data into its file (`varNeed`), every
`embedDBGetVar` of an inserted key returns 0, the record's data and a stream whose bytes are exactly those stored with
it (no stream if none were), every `embedDBGetVar` of another key returns -1, and inserts, flushes and lookups behave as
in C01.

Missing: histories that go on after `embedDBGetVar` was used on a record of the write buffer while data pages exist
(`Spec.NotBuffered`; then later lookups may fail, `C26_false_buffered_get`), tables that are also filled with
`embedDBPut` (`C26_false_plain_put`), keys up to the largest of the key size, more than 128 records per page (C40),
record-level consistency.  With a bitmap index file, `IdxSafe`: before every flush there is room for a bitmap in the
index page under construction (otherwise `embedDBFlush` writes beyond it, `C23_false_flush_full`). -/
theorem C26_unwrapped_partial (c : Cfg) (lo K : Nat) (ops : List VOp) (rb vrb : Page) (sm : Nat → Nat × Nat) (hvf : Bool) (x : Idx)
    (hok : c.Ok K) (hv : c.VFile) (hB : Bounds c lo K ops.length) (h128 : c.maxRec ≤ 128) (hC : ClientV c lo K ops)
    (hroom : varNeed c 0 ops ≤ c.numVar * c.vcap)
    (hidx : IdxSafe c (Data.fresh c rb sm) x (Var.fresh c vrb hvf) ops) :
    Spec.VRun (fun l => l.log.pages.length ≤ c.N) Log.all (fun l k o => o = Spec.vAnswer l.log.all l.var k) Spec.NotBuffered
      c.maxRec VLog.empty (historyV c (Data.fresh c rb sm) x (Var.fresh c vrb hvf) ops) := by
  have hpc : pageCount (Data.fresh c rb sm).wbuf = 0 := by
    have := congrArg List.length (recs_init c)
    rw [recs_length] at this
    exact this
  refine historyVX_ok (E := False) hok (Or.inl rfl) (dvd_zero _) hv hB h128 (limit := fun l => l.log.pages.length ≤ c.N)
    (G := fun d x v ops => IdxSafe c d x v ops) ?_ ?_ ?_ ?_ ?_ ?_ ops _ x _
    VLog.empty ⟨0, [], [], []⟩ (fresh_vtable hok hv (fun h => h.elim) rb vrb sm hvf) ?_ ?_ hC hC.low ?_ ?_ hidx
  · intro l hl
    unfold Spec.dropped
    rw [Nat.zero_max, if_pos hl, Log_live_zero]
  · intro l k o _ h
    exact h (fun h => h)
  · intro d v l g x op ops _ T hl hc
    cases op with
    | put k a b => exact unwrapped_safe (op := .put k a) hok T.tab hc hl
    | flush => exact unwrapped_safe (op := .flush) hok T.tab hc hl
    | get k => exact absurd hc (by simp [completesV])
    | getVar k => exact absurd hc (by simp [completesV])
  · intro _ _ _ _ _ _ h; exact h.elim
  · intro d x v ops hg
    exact hg.1 rfl
  · intro d x v op ops d' x' v' o hg e
    exact hg.2 _ _ _ _ e
  · simp [VLog.empty, Log.empty]
  · simp [Data.fresh]
  · simp [VLog.empty, Log.all, Log.empty]
  · right
    rw [hpc]
    simpa using hroom

/-- C26 when the data file (not the variable data file) may have wrapped any number of times: the answers are those for
the records of the data pages not yet dropped.  `CacheFree`: no data page is completed while the storage page it
overwrites is the one in the read cache (false without, `C02_false_stale_cache`). -/
theorem C26_data_wrapped_partial (c : Cfg) (lo K : Nat) (ops : List VOp) (rb vrb : Page) (sm : Nat → Nat × Nat) (hvf : Bool) (x : Idx)
    (hok : c.Ok K) (hv : c.VFile) (hB : Bounds c lo K ops.length) (h128 : c.maxRec ≤ 128) (hC : ClientV c lo K ops)
    (hroom : varNeed c 0 ops ≤ c.numVar * c.vcap)
    (hidx : IdxSafe c (Data.fresh c rb sm) x (Var.fresh c vrb hvf) ops)
    (hS : Along c (CacheFree c) (Data.fresh c rb sm) x (Var.fresh c vrb hvf) ops) :
    Spec.VRun (fun _ => True) (fun L => L.live (Spec.dropped c.N c.B L.pages.length))
      (fun l k o => o = Spec.vAnswer (l.log.live (Spec.dropped c.N c.B l.log.pages.length)) l.var k) Spec.NotBuffered
      c.maxRec VLog.empty (historyV c (Data.fresh c rb sm) x (Var.fresh c vrb hvf) ops) := by
  have hpc : pageCount (Data.fresh c rb sm).wbuf = 0 := by
    have := congrArg List.length (recs_init c)
    rw [recs_length] at this
    exact this
  refine historyVX_ok (E := False) hok (Or.inl rfl) (dvd_zero _) hv hB h128
    (G := fun d x v ops => Along c (CacheFree c) d x v ops ∧ IdxSafe c d x v ops) ?_ ?_ ?_ ?_ ?_ ?_ ops _ x _
    VLog.empty ⟨0, [], [], []⟩ (fresh_vtable hok hv (fun h => h.elim) rb vrb sm hvf) trivial ?_ hC hC.low ?_ ?_ ⟨hS, hidx⟩
  · intro l _; rfl
  · intro l k o _ h
    exact h (fun h => h)
  · intro d v l g x op ops hg T _ hc
    exact hg.1.1 hc
  · intro _ _ _ _ _ _ h; exact h.elim
  · intro d x v ops hg
    exact hg.2.1 rfl
  · intro d x v op ops d' x' v' o hg e
    exact ⟨hg.1.2 _ _ _ _ e, hg.2.2 _ _ _ _ e⟩
  · simp [Data.fresh]
  · simp [VLog.empty, Log.all, Log.empty]
  · right
    rw [hpc]
    simpa using hroom

/-- C27 (`_partial`: `NoEdge`).  In every state reached as in C26 (with the data file wrapped or not), for every key
whose `embedDBGetVar` gives a stream: reading the stream in pieces of any lengths `ns` gives the stored bytes cut into
those pieces, hence their concatenation is the data (its first `ns.sum` bytes) – provided no piece ends exactly at the
end of a variable page with more data to come.  Without that condition the claim is false: `C27_false_page_edge`.
(The data starts at byte `st.off % pageSize - vhdr` of a page's payload.) -/
theorem C27_chunks_partial (c : Cfg) (lo K : Nat) (ops : List VOp) (rb vrb : Page) (sm : Nat → Nat × Nat) (hvf : Bool) (x x' : Idx)
    (hok : c.Ok K) (hv : c.VFile) (hB : Bounds c lo K ops.length) (h128 : c.maxRec ≤ 128) (hC : ClientV c lo K ops)
    (hroom : varNeed c 0 ops + c.vcap ≤ c.numVar * c.vcap)
    (hcache : CacheOk c (Data.fresh c rb sm) x (Var.fresh c vrb hvf) ops)
    (hclean : Along c (CleanRead c) (Data.fresh c rb sm) x (Var.fresh c vrb hvf) ops)
    (hidx : IdxSafe c (Data.fresh c rb sm) x (Var.fresh c vrb hvf) ops)
    (d : Data) (v : Var) (hrun : runOpsV c (Data.fresh c rb sm) x (Var.fresh c vrb hvf) ops = .ok (d, x', v))
    (k : Nat) (hk : k < K) (d' : Data) (v' : Var) (r : Int) (a : Option (List Byte)) (st : Stream)
    (hget : getVar c d v k = .ok (d', v', r, a, some st)) (ns : List Nat)
    (hedge : Spec.NoEdge c.vcap (st.off % c.pageSize - c.vhdr) st.total 0 ns) :
    ∃ b, (Spec.vlogAfter c.maxRec VLog.empty (historyV c (Data.fresh c rb sm) x (Var.fresh c vrb hvf) ops)).var k = some b ∧
      ∃ v'' st' cs, readChunks c v' st ns = .ok (v'', st', cs) ∧ cs = Spec.chop ns b ∧ cs.flatten = b.take ns.sum := by
  obtain ⟨d1, x1, v1, g, e1, T, hn, -, -, hr, -⟩ := reachX_ok (E := False) hok hv h128 (fun h => h.elim) ops [] hB (le_refl _) rb vrb sm hvf x c.vcap
    (by rw [List.append_nil]; exact hC) (Or.inr (by rw [List.append_nil]; exact hroom)) (by rw [List.append_nil]; exact hcache)
    (fun h => h.elim) (by rw [List.append_nil]; exact hclean) (by rw [List.append_nil]; exact hidx)
  rw [hrun] at e1
  simp only [Res.ok.injEq, Prod.mk.injEq] at e1
  obtain ⟨rfl, rfl, rfl⟩ := e1
  have hcap := hv.cap4
  have hr1 : RoomFor c False (v.next + 1) := room_next hv T hr (by omega)
  obtain ⟨d2, v2, g2, r2, a2, st2, f1, f2, f3, f4, -, f5, -, -, -, -, -, f6⟩ := T.getVarCore hok hv hB hn h128 hk
    (T.sync hv hB.key (fun h => h) k hr1) hr1
  rw [hget] at f1
  simp only [Res.ok.injEq, Prod.mk.injEq] at f1
  obtain ⟨rfl, rfl, rfl, rfl, rfl⟩ := f1
  cases hl : Spec.lookup ((Spec.vlogAfter c.maxRec VLog.empty (historyV c (Data.fresh c rb sm) x (Var.fresh c vrb hvf) ops)).log.live d.min) k with
  | none =>
    rw [hl] at f6
    exact absurd f6.2.2 (by simp)
  | some a' =>
    rw [hl] at f6
    obtain ⟨-, f6⟩ := f6
    rcases f6 with ⟨-, h, -⟩ | ⟨e, e1, e2, ⟨-, -, h⟩ | ⟨h1, -, h2, s, h3, h4, h5, h6⟩⟩
    · cases h
    · cases h
    · cases h3
      refine ⟨e.bs, by rw [← e2]; exact T.vars e (by rw [← f5]; exact e1), ?_⟩
      have eo := f3.ok e e1
      have hoff := h6.1
      rw [hoff, Nat.add_sub_cancel_left, h4] at hedge
      unfold Ent.fin at h2
      obtain ⟨v3, st3, q1⟩ := readChunks_ok (s := g2.s) (q := e.a + 4) (bs := e.bs) hv eo.bytes ns v' st f4
        (f2.holds hv (le_trans h1 (Nat.div_le_div_right (by omega))) (by omega)) h4 (by omega) (fun _ => by rw [h5]; exact h6) (by rw [h5]; exact hedge)
      rw [h5, List.drop_zero] at q1
      exact ⟨v3, st3, _, q1, rfl, chop_flatten ns e.bs⟩

/-- C29 (`_partial`: only when all records are in storage or all are in the write buffer).  In every state reached as in
C26 whose write buffer is empty or whose data file is empty: iterating with `embedDBNextVar` over any range of keys and
data and reading every stream returns exactly the retained records in the range, each with its own variable data.
Otherwise the claim is false: `C29_false_buffered`, `C29_false_page_zero`. -/
theorem C29_scan_partial (c : Cfg) (lo K : Nat) (ops : List VOp) (rb vrb : Page) (sm : Nat → Nat × Nat) (hvf : Bool) (x x' : Idx)
    (hok : c.Ok K) (hv : c.VFile) (hB : Bounds c lo K ops.length) (h128 : c.maxRec ≤ 128)
    (hC : ClientV c lo K ops) (hroom : varNeed c 0 ops + c.vcap ≤ c.numVar * c.vcap)
    (hcache : CacheOk c (Data.fresh c rb sm) x (Var.fresh c vrb hvf) ops)
    (hclean : Along c (CleanRead c) (Data.fresh c rb sm) x (Var.fresh c vrb hvf) ops)
    (hidx : IdxSafe c (Data.fresh c rb sm) x (Var.fresh c vrb hvf) ops)
    (d : Data) (v : Var) (hrun : runOpsV c (Data.fresh c rb sm) x (Var.fresh c vrb hvf) ops = .ok (d, x', v))
    (l : VLog) (hl : l = Spec.vlogAfter c.maxRec VLog.empty (historyV c (Data.fresh c rb sm) x (Var.fresh c vrb hvf) ops))
    (hplace : l.log.buf = [] ∨ l.log.pages = []) (q : Spec.Range) (hq : KeysOk K q)
    (hbm : c.useBmap = false ∨ (q.minData = none ∧ q.maxData = none)) :
    ∃ d' v' x'', scanVar c d x' v q = .ok (d', x'', v',
      (Spec.scan c.cmpData q (l.log.live (Spec.dropped c.N c.B l.log.pages.length))).map fun r => (r, l.var r.1)) := by
  subst hl
  obtain ⟨d1, x1, v1, g, e1, T, hn, -, -, hr, -⟩ := reachX_ok (E := False) hok hv h128 (fun h => h.elim) ops [] hB (le_refl _) rb vrb sm hvf x c.vcap
    (by rw [List.append_nil]; exact hC) (Or.inr (by rw [List.append_nil]; exact hroom)) (by rw [List.append_nil]; exact hcache)
    (fun h => h.elim) (by rw [List.append_nil]; exact hclean) (by rw [List.append_nil]; exact hidx)
  rw [hrun] at e1
  simp only [Res.ok.injEq, Prod.mk.injEq] at e1
  obtain ⟨rfl, rfl, rfl⟩ := e1
  have hr1 : RoomFor c False (v.next + 1) := room_next hv T hr (by omega)
  have hs : VSync v := T.inv.sync hv (T.inv.wrap.resolve_right (fun h => h))
  have R : ScanReady c False d v := by
    refine ⟨hs, ?_⟩
    rcases hplace with h | h
    · left; rw [← recs_length c d.wbuf, T.tab.sim.buf, h]; rfl
    · right
      refine ⟨by rw [T.tab.sim.next, h]; rfl, Or.inr ⟨?_, hr1⟩⟩
      obtain ⟨g', z, v', f1, f2, -⟩ := T.inv.flush hv hB.key T.opn (fun _ => hr1)
      rw [f1]
      exact f2.sync hv (f2.wrap.resolve_right (fun h => h))
  obtain ⟨d', v', g', out, o1, oT, -, o2, o3⟩ := scanVar_ok hok hv hB T R hn x' hq hbm
  refine ⟨d', v', x', ?_⟩
  rw [o1]
  have hdrop := T.tab.dropped_max hok.B0 (dvd_zero _)
  rw [Nat.zero_max] at hdrop
  rw [← hdrop, ← o2, List.map_map]
  have : out.map ((fun r => (r, (Spec.vlogAfter c.maxRec VLog.empty (historyV c (Data.fresh c rb sm) x (Var.fresh c vrb hvf) ops)).var r.1)) ∘ Prod.fst) = out := by
    conv_rhs => rw [← List.map_id out]
    apply List.map_congr_left
    intro p hp
    have h0 : g'.vmin = 0 := by
      exact oT.inv.wrap.resolve_right (fun h => h)
    have h : p.2 = (Spec.vlogAfter c.maxRec VLog.empty (historyV c (Data.fresh c rb sm) x (Var.fresh c vrb hvf) ops)).var p.1.1 := by
      rcases o3 p hp with ⟨h1, h2⟩ | ⟨e, -, -, ⟨h1, -⟩ | ⟨-, h1⟩⟩
      · rw [h1, h2]
      · rw [h0] at h1; exact absurd h1 (Nat.not_lt_zero _)
      · exact h1
    simp only [Function.comp, id]
    rw [← h]
  rw [this]

/-! ### The hypotheses are satisfiable -/

/-- Inserts with data of 40, 0 and 5 bytes and without, a read of a record still buffered, a flush, more reads. -/
def demoVOps : List VOp :=
  [.put 1 (dat 1) (some (blob 40 10)), .getVar 1, .put 2 (dat 2) none, .put 3 (dat 3) (some []), .put 4 (dat 4) (some (blob 5 20)),
   .flush, .getVar 1, .getVar 2, .getVar 3, .getVar 4, .getVar 5]

/-- The hypotheses of C26 hold of this history, … -/
example : demoV.Ok 1000 ∧ demoV.VOk ∧ Bounds demoV 0 1000 demoVOps.length ∧ demoV.maxRec ≤ 128 ∧ ClientV demoV 0 1000 demoVOps ∧
    varNeed demoV 0 demoVOps ≤ demoV.numVar * demoV.vcap ∧ CacheOk demoV demoV0 noIdx demoVar0 demoVOps ∧
    Along demoV (CleanRead demoV) demoV0 noIdx demoVar0 demoVOps :=
  ⟨demoV_ok _, demoV_vok, demoV_bounds (by decide) (by decide), by decide, clientVB_ok (by decide +kernel), by decide +kernel,
    Or.inl (by decide +kernel), alongB_ok (cleanB_ok (c := demoV)) _ _ _ _ (by decide +kernel)⟩

/-- … and this is what it observes. -/
example : historyV demoV demoV0 noIdx demoVar0 demoVOps =
    [(.put 1 (dat 1) (some (blob 40 10)), some (.code 0)), (.getVar 1, some (.gotVar 0 (some (dat 1)) (some (blob 40 10)))),
     (.put 2 (dat 2) none, some (.code 0)), (.put 3 (dat 3) (some []), some (.code 0)), (.put 4 (dat 4) (some (blob 5 20)), some (.code 0)),
     (.flush, some (.code 0)), (.getVar 1, some (.gotVar 0 (some (dat 1)) (some (blob 40 10)))),
     (.getVar 2, some (.gotVar 0 (some (dat 2)) none)), (.getVar 3, some (.gotVar 0 (some (dat 3)) (some []))),
     (.getVar 4, some (.gotVar 0 (some (dat 4)) (some (blob 5 20)))), (.getVar 5, some (.gotVar (-1) none none))] := by
  decide +kernel

/-- C27: the stream of key 1 (40 bytes over three pages) read in pieces of 7, 20 and 30 bytes. -/
example : ((runOpsV demoV demoV0 noIdx demoVar0 demoVOps).check fun s =>
    (getVar demoV s.1 s.2.2 1).check fun t =>
      match t.2.2.2.2 with
      | none => false
      | some st =>
        decide (st.total = 40 ∧ (st.off % 34 - 8 + 7) % 26 ≠ 0 ∧ (st.off % 34 - 8 + 27) % 26 ≠ 0) &&
        (readChunks demoV t.2.1 st [7, 20, 30]).check fun u =>
          decide (u.2.2 = [(blob 40 10).take 7, ((blob 40 10).drop 7).take 20, (blob 40 10).drop 27])) = true := by
  decide +kernel

/-- C29: a scan with variable data. -/
example : ((runOpsV demoV demoV0 noIdx demoVar0 demoVOps).check fun s =>
    (scanVar demoV s.1 noIdx s.2.2 ⟨some 2, none, none, none⟩).check fun t =>
      decide (t.2.2.2 = [((2, dat 2), none), ((3, dat 3), some []), ((4, dat 4), some (blob 5 20))])) = true := by
  decide +kernel

end EDB
