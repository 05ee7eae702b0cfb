import Verif.Proofs.DemoVar
import Verif.Proofs.VarPhase

/-!
# C28: the variable data file has wrapped around
-/

namespace EDB

open Spec (Log VLog VOp VOut)

/-- C28 for whole histories (`_partial`: the conditions along the run, see below).  The variable data file may wrap any
number of times: every `embedDBGetVar` of a retained record returns either code 0, the data and exactly the bytes stored
with it, or – only if it was inserted with variable data – code 1, the data and no stream; other keys get -1; inserts,
flushes and lookups behave as in C01/C05.

`eraseFx = id`: the device keeps the contents of erased pages readable until they are written (the code reads a page
after erasing it).  `CacheFree`: as in C02.  `WrapSafe`: when a data page is completed the variable page in the write
buffer is not empty, and when variable data is read the variable read cache agrees with the file.  `IdxSafe`: as in C26,
for tables with an index file.  Without them the claim is false: `C28_false_stale_cache`, `C28_false_empty_page`,
`C28_false_erase`, `C23_false_flush_full`. -/
theorem C28_history_partial (c : Cfg) (lo K : Nat) (ops : List VOp) (rb vrb : Page) (sm : Nat → Nat × Nat) (hvf : Bool) (x : Idx)
    (hok : c.Ok K) (hv : c.VFile) (hid : c.eraseFx = id) (hB : Bounds c lo K ops.length) (h128 : c.maxRec ≤ 128) (hC : ClientV c lo K ops)
    (hidx : IdxSafe c (Data.fresh c rb sm) x (Var.fresh c vrb hvf) ops)
    (hS : Along c (CacheFree c) (Data.fresh c rb sm) x (Var.fresh c vrb hvf) ops)
    (hW : Along c (WrapSafe c) (Data.fresh c rb sm) x (Var.fresh c vrb hvf) ops) :
    Spec.VRun (fun _ => True) (fun L => L.live (Spec.dropped c.N c.B L.pages.length))
      (fun l k o => Spec.vAnswerOrGone (l.log.live (Spec.dropped c.N c.B l.log.pages.length)) l.var k o) Spec.NotBuffered
      c.maxRec VLog.empty (historyV c (Data.fresh c rb sm) x (Var.fresh c vrb hvf) ops) := by
  refine historyVX_ok (E := True) hok (Or.inl rfl) (dvd_zero _) hv hB h128
    (G := fun d x v ops => Along c (CacheFree c) d x v ops ∧ Along c (WrapSafe c) d x v ops ∧ IdxSafe c d x v ops) ?_ ?_ ?_ ?_ ?_ ?_ ops _ x _
    VLog.empty ⟨0, [], [], []⟩ (fresh_vtable hok hv (fun _ => hid) rb vrb sm hvf) trivial ?_ hC hC.low ?_ (Or.inl trivial) ⟨hS, hW, hidx⟩
  · intro l _; rfl
  · intro l k o h _
    exact h
  · intro d v l g x op ops hg T _ hc
    exact hg.1.1 hc
  · intro d x v op ops hg _
    exact hg.2.1.1
  · intro d x v ops hg
    exact hg.2.2.1 rfl
  · intro d x v op ops d' x' v' o hg e
    exact ⟨hg.1.2 _ _ _ _ e, hg.2.1.2 _ _ _ _ e, hg.2.2.2 _ _ _ _ e⟩
  · simp [Data.fresh]
  · simp [VLog.empty, Log.all, Log.empty]

/-- C28, which of the two answers (`_partial`: the same conditions).  A record is inserted with variable data `b`; the
data starts on variable page number `first`, the page being filled then.  Whatever follows (`ops2`), if the record is
still retained when it is looked up with `embedDBGetVar`: exactly if page `first` is among the pages reclaimed by then
(`Spec.dropped`, of `v3.next` pages written) the answer is code 1 and no stream, otherwise code 0 and exactly `b`. -/
theorem C28_exact_partial (c : Cfg) (lo K : Nat) (ops1 ops2 : List VOp) (k : Nat) (a b : List Byte) (rb vrb : Page) (sm : Nat → Nat × Nat)
    (hvf : Bool) (x : Idx) (hok : c.Ok K) (hv : c.VFile) (hid : c.eraseFx = id) (hB : Bounds c lo K (ops1.length + ops2.length + 2))
    (h128 : c.maxRec ≤ 128) (hC : ClientV c lo K (ops1 ++ .put k a (some b) :: (ops2 ++ [.getVar k])))
    (hS : Along c (CacheFree c) (Data.fresh c rb sm) x (Var.fresh c vrb hvf) (ops1 ++ .put k a (some b) :: (ops2 ++ [.getVar k])))
    (hW : Along c (WrapSafe c) (Data.fresh c rb sm) x (Var.fresh c vrb hvf) (ops1 ++ .put k a (some b) :: (ops2 ++ [.getVar k])))
    (hR : Along c (CleanRead c) (Data.fresh c rb sm) x (Var.fresh c vrb hvf) (ops1 ++ .put k a (some b) :: (ops2 ++ [.getVar k])))
    (hidx : IdxSafe c (Data.fresh c rb sm) x (Var.fresh c vrb hvf) (ops1 ++ .put k a (some b) :: (ops2 ++ [.getVar k])))
    (d1 d1' d2 d3 : Data) (x1 x1' x2 x3 : Idx) (v1 v1' v2 v3 : Var) (o : VOut)
    (h1 : runOpsV c (Data.fresh c rb sm) x (Var.fresh c vrb hvf) ops1 = .ok (d1, x1, v1))
    (h2 : stepV c d1 x1 v1 (.put k a (some b)) = .ok (d1', x1', v1', .code 0))
    (h3 : runOpsV c d1' x1' v1' ops2 = .ok (d2, x2, v2))
    (h4 : stepV c d2 x2 v2 (.getVar k) = .ok (d3, x3, v3, o))
    (l : VLog) (hl : l = Spec.vlogAfter c.maxRec VLog.empty
      (historyV c (Data.fresh c rb sm) x (Var.fresh c vrb hvf) (ops1 ++ .put k a (some b) :: ops2)))
    (hret : Spec.lookup (l.log.live (Spec.dropped c.N c.B l.log.pages.length)) k = some a)
    (first : Nat) (hfirst : first = (preVar c d1 v1).next) :
    o = if first < Spec.dropped c.numVar c.B v3.next then .gotVar 1 (some a) none else .gotVar 0 (some a) (some b) := by
  obtain ⟨e1, y1, w1, g1, f1, T1, n1, C1, gt1, -, cf1, ws1, cr1, ix1⟩ := reachX_ok (E := True) hok hv h128 (fun _ => hid) ops1
    (.put k a (some b) :: (ops2 ++ [.getVar k])) hB (by omega) rb vrb sm hvf x 0 hC (Or.inl trivial) (Or.inr hS) (fun _ => hW) hR hidx
  rw [h1] at f1
  simp only [Res.ok.injEq, Prod.mk.injEq] at f1
  obtain ⟨rfl, rfl, rfl⟩ := f1
  obtain ⟨e2, y2, w2, l2, g2, o2, s1, s2, -, -, -, s3, s4⟩ := T1.stepX hok (Or.inl rfl) hv hB h128 _ (by omega) C1 C1.low gt1
    (fun hc => cf1.head hok T1 hc) (fun _ => (ws1 trivial).1) ix1.1 (m := 0) (Or.inl trivial)
  rw [h2] at s1
  simp only [Res.ok.injEq, Prod.mk.injEq] at s1
  obtain ⟨rfl, rfl, rfl, rfl⟩ := s1
  obtain ⟨T2, n2, gt2, -⟩ := s4 (fun k h => by cases h)
  obtain ⟨⟨e, m1, m2, m3, m4⟩, -⟩ := s3 k a b rfl rfl
  have cf2 := cf1.step hok T1 T2 s2 h2
  have ws2 := (ws1 trivial).2 _ _ _ _ h2
  have cr2 := cr1.2 _ _ _ _ h2
  have ix2 := ix1.2 _ _ _ _ h2
  obtain ⟨e3, y3, w3, g3, r1, -, ⟨t, ht⟩, T3, n3, C3, gt3, -, ⟨cf3, ws3, cr3, ix3⟩, -⟩ := runOpsVX_with (E := True) hok (Or.inl rfl) hv hB h128
    (G := fun d x v ops => CacheOk c d x v ops ∧ Along c (WrapSafe c) d x v ops ∧ Along c (CleanRead c) d x v ops ∧ IdxSafe c d x v ops)
    (fun d v l g x op ops hg T hc => hg.1.head hok T hc)
    (fun d x v op ops hg _ => hg.2.1.1)
    (fun d x v k ops hg => hg.2.2.1.1)
    (fun d x v ops hg => hg.2.2.2.1 rfl)
    (fun d x v op ops d' x' v' o l g l' g' hg T T' hobs e => ⟨hg.1.step hok T T' hobs e, hg.2.1.2 _ _ _ _ e, hg.2.2.1.2 _ _ _ _ e, hg.2.2.2.2 _ _ _ _ e⟩)
    (J := fun _ _ _ => True) (by intros; trivial)
    [.getVar k] 0 ops2 d1' x1' v1' _ g2 T2 (by omega) C1.tail C1.tail.low gt2 (Or.inl trivial) ⟨cf2, ws2, cr2, ix2⟩ trivial
  rw [h3] at r1
  simp only [Res.ok.injEq, Prod.mk.injEq] at r1
  obtain ⟨rfl, rfl, rfl⟩ := r1
  obtain ⟨e4, y4, w4, l4, g4, o4, q1, q2, -, -, q3, -, -⟩ := T3.stepX hok (Or.inl rfl) hv hB h128 _ (by omega) C3 C3.low gt3
    (fun hc => cf3.head hok T3 hc) (fun _ => ws3.1) ix3.1 (m := 0) (Or.inl trivial)
  rw [h4] at q1
  simp only [Res.ok.injEq, Prod.mk.injEq] at q1
  obtain ⟨rfl, rfl, rfl, rfl⟩ := q1
  obtain ⟨z1, -, -, z2⟩ := q3 k rfl
  have hl' : l = Spec.vlogAfter c.maxRec l2 (historyV c d1' x1' v1' ops2) := by
    rw [hl, history_split _ _ _ _ _ h1, vlogAfter_append, historyV]
    simp only [h2]
    rcases s2 with ⟨-, rfl⟩ | ⟨h, -⟩
    · rfl
    · cases h
  rw [← hl'] at T3 q2
  have hdrop := T3.tab.dropped_max hok.B0 (dvd_zero _)
  rw [Nat.zero_max] at hdrop
  obtain ⟨-, r, out, bs, rfl, q⟩ := q2
  rw [hdrop, hret] at q
  obtain ⟨rfl, q⟩ := q
  have hmem : e ∈ g3.es := by rw [ht]; exact List.mem_append_left _ m1
  rw [← z2.vmin_eq hv]
  rcases q with ⟨-, -, h⟩ | ⟨e', y1, y2, y3⟩
  · exact absurd m2 (h e (by rw [z1]; exact hmem))
  · have := T3.ents.key_inj (by rw [z1] at y1; exact y1) hmem (by rw [y2, m2])
    subst this
    rw [m4, ← hfirst] at y3
    rcases y3 with ⟨y3, rfl, rfl⟩ | ⟨y3, rfl, rfl⟩
    · rw [if_pos y3]
    · rw [if_neg (by omega), m3]

/-- C28 for a client that inserts, flushes and then looks up, without conditions on the states in between.  All keys are
at least 1, every record is inserted with variable data (of any length, also 0), the variable data file may wrap any
number of times.  The only condition left is on the number of variable pages written in the end: either they fit into
the file or the last one is not the last of a block (then the read cache is stale: `C28_false_stale_cache`). -/
theorem C28_insert_then_read_partial (c : Cfg) (lo K : Nat) (puts reads : List VOp) (rb vrb : Page) (sm : Nat → Nat × Nat) (hvf : Bool) (x : Idx)
    (hok : c.Ok K) (hv : c.VFile) (hid : c.eraseFx = id) (hB : Bounds c lo K (puts.length + reads.length + 2)) (h128 : c.maxRec ≤ 128)
    (hlo : 0 < lo) (hC : ClientV c lo K (puts ++ .flush :: reads)) (hputs : ∀ op ∈ puts, PutsData op) (hreads : ∀ op ∈ reads, ReadOnly op)
    (hedge : ∀ d' x' v', runOpsV c (Data.fresh c rb sm) x (Var.fresh c vrb hvf) (puts ++ [.flush]) = .ok (d', x', v') →
      v'.next ≤ c.numVar ∨ ¬ c.B ∣ v'.next)
    (hidx : IdxSafe c (Data.fresh c rb sm) x (Var.fresh c vrb hvf) (puts ++ .flush :: reads)) :
    Spec.VRun (fun _ => True) (fun L => L.live (Spec.dropped c.N c.B L.pages.length))
      (fun l k o => Spec.vAnswerOrGone (l.log.live (Spec.dropped c.N c.B l.log.pages.length)) l.var k o) Spec.NotBuffered
      c.maxRec VLog.empty (historyV c (Data.fresh c rb sm) x (Var.fresh c vrb hvf) (puts ++ .flush :: reads)) := by
  have hpc : pageCount (Data.fresh c rb sm).wbuf = 0 := by
    have := congrArg List.length (recs_init c)
    rw [recs_length] at this
    exact this
  obtain ⟨h1, h2⟩ := phase_along hok hv hid hB h128 hlo reads hreads puts (Data.fresh c rb sm) x (Var.fresh c vrb hvf) VLog.empty ⟨0, [], [], []⟩
    (fresh_vtable hok hv (fun _ => hid) rb vrb sm hvf) (by simp [Data.fresh]) hC hputs (by simp [VLog.empty, Log.all, Log.empty])
    (fresh_vph hv vrb hvf) rfl (Or.inr rfl) (by omega) (fun _ => hedge) hidx
  have hlen : (puts ++ VOp.flush :: reads).length ≤ puts.length + reads.length + 2 := by
    rw [List.length_append, List.length_cons]; omega
  exact C28_history_partial c lo K _ rb vrb sm hvf x hok hv hid
    ⟨lt_of_le_of_lt (Nat.mul_le_mul_left _ (Nat.add_le_add_right hlen _)) hB.prod, lt_of_le_of_lt hlen hB.pages, hB.key⟩ h128 hC hidx h2 h1

/-! ### The hypotheses are satisfiable -/

/-- Five inserts with 20 bytes each. -/
def demoWPuts : List VOp := (List.range 5).map fun i => .put (i + 1) (dat (UInt8.ofNat i)) (some (blob 20 (UInt8.ofNat (10 * i))))

/-- Lookups of all of them. -/
def demoWReads : List VOp := [.getVar 1, .getVar 2, .getVar 3, .getVar 4, .getVar 5, .getVar 6]

theorem demoW_edge : ∀ d' x' v', runOpsV demoW demoW0 noIdx demoVarW0 (demoWPuts ++ [.flush]) = .ok (d', x', v') →
    v'.next ≤ demoW.numVar ∨ ¬ demoW.B ∣ v'.next := by
  intro d' x' v' h
  have e : ((runOpsV demoW demoW0 noIdx demoVarW0 (demoWPuts ++ [.flush])).check fun s =>
      decide (s.2.2.next ≤ demoW.numVar ∨ ¬ demoW.B ∣ s.2.2.next)) = true := by decide +kernel
  rw [h] at e
  exact of_decide_eq_true e

theorem demoW_puts : ∀ op ∈ demoWPuts, PutsData op := by
  intro op h
  obtain ⟨i, -, rfl⟩ := List.mem_map.mp h
  exact trivial

theorem demoW_reads : ∀ op ∈ demoWReads, ReadOnly op := by
  intro op h
  simp only [demoWReads, List.mem_cons, List.not_mem_nil, or_false] at h
  rcases h with rfl | rfl | rfl | rfl | rfl | rfl <;> exact trivial

/-- The hypotheses of `C28_insert_then_read_partial`, … -/
example : demoW.Ok 1000 ∧ demoW.VOk ∧ demoW.eraseFx = id ∧ Bounds demoW 1 1000 (demoWPuts.length + demoWReads.length + 2) ∧ demoW.maxRec ≤ 128 ∧
    ClientV demoW 1 1000 (demoWPuts ++ .flush :: demoWReads) ∧ IdxSafe demoW demoW0 noIdx demoVarW0 (demoWPuts ++ .flush :: demoWReads) :=
  ⟨demoW_ok _, demoW_vok, rfl, demoW_bounds (by decide) (by decide), by decide, clientVB_ok (by decide +kernel), idxSafe_plain rfl _ _ _ _⟩

/-- … hence those of `C28_history_partial` and (with `ops1 = [put 1]`, `ops2 = [put 3, put 4, put 5, flush, …]`) of
`C28_exact_partial`, … -/
example : Along demoW (WrapSafe demoW) demoW0 noIdx demoVarW0 (demoWPuts ++ .flush :: demoWReads) ∧
    Along demoW (CacheFree demoW) demoW0 noIdx demoVarW0 (demoWPuts ++ .flush :: demoWReads) ∧
    Along demoW (CleanRead demoW) demoW0 noIdx demoVarW0 (demoWPuts ++ .flush :: demoWReads) := by
  obtain ⟨h1, h2⟩ := phase_along (lo := 1) (demoW_ok 1000) demoW_vok rfl (demoW_bounds (P := 100) (by decide) (by decide)) (by decide) (by decide)
    demoWReads demoW_reads demoWPuts demoW0 noIdx demoVarW0 VLog.empty ⟨0, [], [], []⟩
    (fresh_vtable (demoW_ok _) demoW_vok (fun _ => rfl) _ _ _ _) (by decide) (clientVB_ok (by decide +kernel)) demoW_puts
    (by simp [VLog.empty, Log.all, Log.empty]) (fresh_vph demoW_vok _ _) rfl (Or.inr rfl) (fun h => absurd h (by decide)) (fun _ => demoW_edge) (idxSafe_plain rfl _ _ _ _)
  exact ⟨h1, h2, alongB_ok (cleanB_ok (c := demoW)) _ _ _ _ (by decide +kernel)⟩

/-- … and what the lookups observe: five pages have been written, two reclaimed. -/
example : (historyV demoW demoW0 noIdx demoVarW0 (demoWPuts ++ .flush :: demoWReads)).drop 6 =
    [(.getVar 1, some (.gotVar 1 (some (dat 0)) none)), (.getVar 2, some (.gotVar 1 (some (dat 1)) none)),
     (.getVar 3, some (.gotVar 0 (some (dat 2)) (some (blob 20 20)))), (.getVar 4, some (.gotVar 0 (some (dat 3)) (some (blob 20 30)))),
     (.getVar 5, some (.gotVar 0 (some (dat 4)) (some (blob 20 40)))), (.getVar 6, some (.gotVar (-1) none none))] := by
  decide +kernel

end EDB
