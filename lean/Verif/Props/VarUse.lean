import Verif.Props.VarLives
import Verif.Props.Var

/-!
# C09, C27, C29: flushes, pieces of variable data and iterators, after any life of a table whose variable data file wraps

The lives are those of C70: any number of wraps of both files, power failures inside and between operations, reopenings.
-/

namespace EDB

open Spec (Log VLog VOp VOut Rec)

/-- C27 after any life (`_partial`: `NoEdge`, and the conditions of C70).  If `embedDBGetVar` gives a stream, reading it in pieces
of any lengths `ns` gives the bytes inserted with the record, cut into those pieces – provided no piece ends exactly at the end
of a variable page with more data to come (otherwise false: `C27_false_page_edge`). -/
theorem C27_life_partial (c : Cfg) (lo K P : Nat) (hok : c.Ok K) (hv : c.VFile) (hid : c.eraseFx = id) (hB : Bounds c lo K P)
    (h127 : c.maxRec ≤ 127) (hN32 : c.N < 2 ^ 32) (hP0 : 0 < P) (R n0 Q : Nat) (first : Nat → Nat) (d : Data) (x : Idx) (v : Var) (l : VLog)
    (h : LifeW c lo K P R n0 Q first d x v l) (k : Nat) (A : AllowedW c lo K P Q d v (.getVar k)) (d' : Data) (v' : Var) (r : Int)
    (a : Option (List Byte)) (st : Stream) (hget : getVar c d v k = .ok (d', v', r, a, some st)) (ns : List Nat)
    (hedge : Spec.NoEdge c.vcap (st.off % c.pageSize - c.vhdr) st.total 0 ns) :
    ∃ b, l.var k = some b ∧ ∃ v'' st' cs, readChunks c v' st ns = .ok (v'', st', cs) ∧ cs = Spec.chop ns b ∧ cs.flatten = b.take ns.sum := by
  obtain ⟨lv, low, g, I⟩ := h.inv hok hv hid hB h127 hN32 hP0
  have T := I.tab
  have hcap := hv.cap4
  obtain ⟨d2, v2, g2, r2, a2, st2, f1, f2, f3, f4, -, f5, -, -, -, -, -, f6⟩ := T.getVarCore hok hv hB (le_of_lt I.pages) (by omega)
    (A.client.getVar k (by simp)) A.wrap (Or.inl trivial)
  rw [hget] at f1
  simp only [Res.ok.injEq, Prod.mk.injEq] at f1
  obtain ⟨rfl, rfl, rfl, rfl, rfl⟩ := f1
  cases hl : Spec.lookup (l.log.live d.min) k with
  | none =>
    rw [hl] at f6
    exact absurd f6.2.2 (by simp)
  | some a' =>
    rw [hl] at f6
    obtain ⟨-, f6⟩ := f6
    rcases f6 with ⟨-, h, -⟩ | ⟨e, e1, e2, ⟨-, -, h⟩ | ⟨h1, -, h2, s, h3, h4, h5, h6⟩⟩
    · cases h
    · cases h
    · cases h3
      refine ⟨e.bs, by rw [← e2]; exact T.vars e (by rw [← f5]; exact e1), ?_⟩
      have eo := f3.ok e e1
      have hoff := h6.1
      rw [hoff, Nat.add_sub_cancel_left, h4] at hedge
      unfold Ent.fin at h2
      obtain ⟨v3, st3, q1⟩ := readChunks_ok (s := g2.s) (q := e.a + 4) (bs := e.bs) hv eo.bytes ns v' st f4
        (f2.holds hv (le_trans h1 (Nat.div_le_div_right (by omega))) (by omega)) h4 (by omega) (fun _ => by rw [h5]; exact h6) (by rw [h5]; exact hedge)
      rw [h5, List.drop_zero] at q1
      exact ⟨v3, st3, _, q1, rfl, chop_flatten ns e.bs⟩

/-- C29 after any life (`_partial`: all records are in storage, or all are in the write buffer; the variable read cache agrees with
the file; and the conditions of C70).  Iterating with `embedDBNextVar` over any range of keys and data and reading every stream
returns exactly the retained records in the range, each with its own variable data, which is missing exactly if it starts before
the first page kept, or before the first page delivered when the table was last opened. -/
theorem C29_life_partial (c : Cfg) (lo K P : Nat) (hok : c.Ok K) (hv : c.VFile) (hid : c.eraseFx = id) (hbm : c.useBmap = false) (hB : Bounds c lo K P)
    (h127 : c.maxRec ≤ 127) (hN32 : c.N < 2 ^ 32) (hP0 : 0 < P) (R n0 Q : Nat) (first : Nat → Nat) (d : Data) (x : Idx) (v : Var) (l : VLog)
    (h : LifeW c lo K P R n0 Q first d x v l) (hsync : VSync v)
    (hplace : l.log.buf = [] ∨ (l.log.pages = [] ∧ VSync (flushVar c v).1)) (q : Spec.Range) (hq : KeysOk K q) :
    ∃ d' v' out, scanVar c d x v q = .ok (d', x, v', out) ∧
      out = (Spec.scan c.cmpData q (l.log.live (max (Spec.recovered c.N c.B R) (Spec.dropped c.N c.B l.log.pages.length)))).map fun r =>
        (r, if first r.1 < max (Spec.firstGiven c.numVar c.B n0) (Spec.dropped c.numVar c.B v'.next) then none else l.var r.1) := by
  obtain ⟨lv, low, g, I⟩ := h.inv hok hv hid hB h127 hN32 hP0
  have T := I.tab
  have Rd : ScanReady c ⟨True, firstRead c.numVar c.B n0, low⟩ d v := by
    refine ⟨hsync, ?_⟩
    rcases hplace with h | ⟨h, h'⟩
    · left; rw [← recs_length c d.wbuf, T.tab.sim.buf, h]; rfl
    · exact Or.inr ⟨by rw [T.tab.sim.next, h]; rfl, Or.inr ⟨h', Or.inl trivial⟩⟩
  obtain ⟨d', v', g', out, o1, oT, hes, o2, o3⟩ := scanVar_ok hok hv hB T Rd (le_of_lt I.pages) x hq (Or.inl hbm)
  refine ⟨d', v', out, o1, ?_⟩
  have hdrop := T.tab.dropped_max hok.B0 recovered_dvd
  rw [← hdrop, ← o2, List.map_map]
  conv_lhs => rw [← List.map_id out]
  apply List.map_congr_left
  intro p hp
  have hvm := oT.inv.vmin_max hv
  simp only at hvm
  have hf : Spec.firstGiven c.numVar c.B n0 = firstRead c.numVar c.B n0 := rfl
  simp only [Function.comp, id, hf, ← hvm]
  refine Prod.ext rfl ?_
  simp only
  rcases o3 p hp with ⟨h1, h2⟩ | ⟨e, e1, e2, h⟩
  · rw [h1, h2]; simp
  · have hfst := I.first e (by rw [← hes]; exact e1)
    rw [e2] at hfst
    rw [hfst]
    rcases h with ⟨h1, h2⟩ | ⟨h1, h2⟩
    · rw [if_pos h1]; exact h2
    · rw [if_neg (by omega)]; exact h2

/-- C09 with variable data (`_partial`: the conditions of C70; `hV`: not a single variable page that names key 0).  After any
life `embedDBFlush` succeeds; if the power fails then, the table opens again and holds every record inserted before (`pages`,
of which the data file keeps those from `Spec.recovered` on), and `embedDBGetVar` of any key gives the record with its variable
data, which is gone exactly if it starts before the first page delivered when the table was opened. -/
theorem C09_var_partial (c : Cfg) (lo K P : Nat) (hok : c.Ok K) (hv : c.VFile) (hid : c.eraseFx = id) (hB : Bounds c lo K P)
    (h127 : c.maxRec ≤ 127) (hN32 : c.N < 2 ^ 32) (hK0 : 0 < K) (R n0 Q : Nat) (first : Nat → Nat) (d : Data) (x x'' : Idx) (v : Var) (l : VLog)
    (h : LifeW c lo K P R n0 Q first d x v l) (A : AllowedW c lo K P Q d v .flush) (hx : IdxRoom c x)
    (hP : d.next + 2 < P) :
    ∃ d' x' v', stepV c d x v .flush = .ok (d', x', v', .code 0) ∧
      (((Spec.writes d'.dev.log).length ≤ c.N ∨ c.maxErr ≤ 1) → (Spec.writes v'.dev.log).length + 1 < 2 ^ 32 →
       ((Spec.writes v'.dev.log).length = 1 → ¬ LonePage c v'.dev) → ∀ (rb vrb : Page) (sm : Nat → Nat × Nat) (hvf : Bool),
        ∃ d'' v'' pages, reopenV c d'.dev v'.dev rb sm vrb hvf = (d'', v'', 0) ∧ pages = l.log.flush.pages ∧ pages.flatten = l.log.all ∧
          ∀ k, k < K → ∃ d3 x3 v3 o, stepV c d'' x'' v'' (.getVar k) = .ok (d3, x3, v3, o) ∧
            Spec.KeptAnswer ((Log.mk pages []).live (Spec.recovered c.N c.B pages.length)) l.var
              (fun k => first k < max (Spec.firstGiven c.numVar c.B v''.next) (Spec.dropped c.numVar c.B (Spec.writes v3.dev.log).length)) k o) := by
  have hP0 : 0 < P := by omega
  obtain ⟨lv, low, g, I⟩ := h.inv hok hv hid hB h127 hN32 hP0
  obtain ⟨d', x', v', l', g', o, e, hobs, -, -, I'⟩ := I.step hok hv hB (by omega) A x (fun _ => hx)
  obtain ⟨rfl, rfl⟩ := hobs
  refine ⟨d', x', v', e, ?_⟩
  intro hspl h32 hV rb vrb sm hvf
  have L1 := h.op A (fun _ => hx) e
  have hlog : Spec.vlogAfter c.maxRec l [(.flush, some (.code 0))] = ⟨l.log.flush, l.var⟩ := rfl
  rw [hlog] at L1
  have hbuf : l.log.flush.buf = [] := by
    unfold Log.flush
    split_ifs with h0
    · exact h0
    · rfl
  have hn' : d'.next ≤ d.next + 1 := by
    rw [I.tab.tab.sim.next, I'.tab.tab.sim.next]
    simp only
    unfold Log.flush
    split_ifs <;> simp
  have Ag : AllowedW c lo K P Q d' v' (.get 0) := ⟨⟨by simp [Spec.offeredV], by simp, fun k hk => by simp at hk; omega, by simp⟩,
    by simp [Spec.offeredV], by omega, fun h => absurd h (fun h => h), trivial, trivial⟩
  obtain ⟨d'', v'', pages, r1, r2, r3, rs, r4⟩ := C70_reopen_partial c lo K P hok hv hid hB h127 hN32 hP0 _ _ _ _ d' x' x'' v' _ L1 (.get 0) Ag (by simp)
    _ _ (PowerFail.get 0) hspl h32 hV rb vrb sm hvf
  have hpages : pages = l.log.flush.pages := by
    have h0 : pages.length = l.log.flush.pages.length := by rw [r3, ← wrote_length, I'.jr.count]
    rcases r2 with rfl | rfl
    · rfl
    · simp at h0
  refine ⟨d'', v'', pages, r1, hpages, ?_, ?_⟩
  · rw [hpages, ← Log_flush_all]
    unfold Log.all
    rw [hbuf, List.append_nil]
  · intro k hk
    obtain ⟨lv2, low2, g2, I2⟩ := r4.inv hok hv hid hB h127 hN32 hP0
    have hpc : pageCount d''.wbuf = 0 := by rw [← recs_length c d''.wbuf, I2.tab.tab.sim.buf]; rfl
    have hle : pages.length ≤ d'.next := by
      rw [r3, ← wrote_length, I'.jr.count, I'.tab.tab.sim.next]
    have A2 : AllowedW c lo K P (Spec.nextKey Q (.get 0)) d'' v'' (.getVar k) := by
      refine ⟨⟨by simp [Spec.offeredV], by simp, by simp, fun k' hk' => by simp at hk'; omega⟩, by simp [Spec.offeredV], ?_,
        fun h => absurd h (fun h => h), fun h => absurd h (not_inBuf hpc k), ?_⟩
      · rw [I2.tab.tab.sim.next]
        simp only
        omega
      · show VSync (readFrom c d'' v'' k)
        unfold readFrom
        rw [if_neg (not_inBuf hpc k)]
        exact rs
    obtain ⟨d3, x3, v3, o, s1, s2⟩ := C70_step_partial c lo K P hok hv hid hB h127 hN32 hP0 _ _ _ _ d'' x'' v'' _ r4 (.getVar k) A2 (by simp)
    refine ⟨d3, x3, v3, o, s1, ?_⟩
    rw [Spec.LifeAnswer, max_eq_left (dropped_le_recovered _ _ _)] at s2
    exact s2

/-! ### The hypotheses are satisfiable -/

/-- C09: five inserts (the variable data file wraps), then the flush. -/
example : ∃ Q first d x v l, LifeW demoW 1 1000 100 0 0 Q first d x v l ∧ AllowedW demoW 1 1000 100 Q d v .flush ∧ IdxRoom demoW x ∧ d.next + 2 < 100 ∧
    l.log.buf.length = 1 ∧ (stepV demoW d x v .flush).check (fun s =>
      decide ((Spec.writes s.1.dev.log).length ≤ demoW.N ∧ (Spec.writes s.2.2.1.dev.log).length = 5)) = true := by
  obtain ⟨Q, first, d, x, v, l, hL, hW⟩ := lifeWB_ok (K := 1000) (P := 100) (W := fun Q _ d x v l => allowedWB demoW 1 1000 100 Q d v .flush &&
    (decide (d.next + 2 < 100 ∧ l.log.buf.length = 1) && (stepV demoW d x v .flush).check (fun s =>
      decide ((Spec.writes s.1.dev.log).length ≤ demoW.N ∧ (Spec.writes s.2.2.1.dev.log).length = 5))))
    demoWPuts 1 (fun _ => 0) demoW0 noIdx demoVarW0 VLog.empty (LifeW.new _ _ _ _ _) (by decide +kernel)
  simp only [Bool.and_eq_true] at hW
  obtain ⟨h1, h2, h3⟩ := hW
  have h2 := of_decide_eq_true h2
  exact ⟨Q, first, d, x, v, l, hL, allowedWB_ok h1, idxRoom_plain rfl x, h2.1, h2.2, h3⟩

/-- Five inserts and a flush, the variable data file wraps; the power fails and the table is opened again: both theorems apply to
this state, … -/
def demoWAgain (W : Data → Idx → Var → Bool) (Q : Nat) (_ : Nat → Nat) (d : Data) (x : Idx) (v : Var) (_ : VLog) : Bool :=
  allowedWB demoW 1 1000 100 Q d v (.get 1) && decide ((Spec.writes d.dev.log).length ≤ demoW.N ∧ (Spec.writes v.dev.log).length = 5 ∧ Q ≤ 6) &&
    (match reopenV demoW d.dev v.dev (fun _ => 7) (fun _ => (0, 0)) (fun _ => 9) false with
    | (d', v', _) => decide (pageCount d'.wbuf = 0 ∧ d'.next + 1 < 100) && W d' x v')

theorem demoWAgain_ok {W : Data → Idx → Var → Bool}
    (h : lifeWB demoW 1 1000 100 (demoWAgain W) 1 (fun _ => 0) demoW0 noIdx demoVarW0 VLog.empty (demoWPuts ++ [.flush]) = true) :
    ∃ R n0 Q first d x v l, LifeW demoW 1 1000 100 R n0 Q first d x v l ∧ VSync v ∧ l.log.buf = [] ∧ Q ≤ 6 ∧ d.next + 1 < 100 ∧
      (∀ k, k < 1000 → AllowedW demoW 1 1000 100 Q d v (.getVar k)) ∧ W d x v = true := by
  obtain ⟨Q, first, d, x, v, l, hL, hW⟩ := lifeWB_ok _ _ _ _ _ _ _ (LifeW.new _ _ _ _ _) h
  simp only [demoWAgain, Bool.and_eq_true, decide_eq_true_eq] at hW
  obtain ⟨⟨h1, h2, h3, hQ⟩, ⟨h4, h5⟩, h6⟩ := hW
  obtain ⟨d'', v'', pages, e, -, -, hs, hC⟩ := C70_reopen_partial demoW 1 1000 100 (demoW_ok _) demoW_vok rfl (demoW_bounds (by decide) (by decide))
    (by decide) (by decide) (by decide) _ _ _ _ d x x v l hL (.get 1) (allowedWB_ok h1) (by decide) _ _ (PowerFail.get 1) (Or.inl h2) (by omega)
    (by omega) (fun _ => 7) (fun _ => 9) (fun _ => (0, 0)) false
  rw [e] at h4 h5 h6
  refine ⟨_, _, _, _, d'', x, v'', _, hC, hs, rfl, hQ, h5, fun k hk => ⟨?_, by simp [Spec.offeredV], h5, fun h => absurd h (fun h => h),
    fun h => absurd h (not_inBuf h4 k), ?_⟩, h6⟩
  · exact clientVB_ok (by simp [clientVB, Spec.offeredV, hk])
  · show VSync (readFrom demoW d'' v'' k)
    unfold readFrom
    rw [if_neg (not_inBuf h4 k)]
    exact hs

/-- … this is what the scan returns (pages up to the oldest one counted as stored are given up), … -/
example : lifeWB demoW 1 1000 100 (demoWAgain fun d x v =>
    (scanVar demoW d x v ⟨some 2, none, none, none⟩).check fun t => decide (t.2.2.2 =
      [((2, dat 1), none), ((3, dat 2), none), ((4, dat 3), some (blob 20 30)), ((5, dat 4), some (blob 20 40))]))
    1 (fun _ => 0) demoW0 noIdx demoVarW0 VLog.empty (demoWPuts ++ [.flush]) = true := by
  decide +kernel

/-- … and the stream of key 5 in pieces of 7, 8 and 30 bytes. -/
example : lifeWB demoW 1 1000 100 (demoWAgain fun d _ v =>
    (getVar demoW d v 5).check fun t => match t.2.2.2.2 with
      | none => false
      | some st => decide (st.total = 20 ∧ (st.off % 34 - 8 + 7) % 26 ≠ 0 ∧ (st.off % 34 - 8 + 15) % 26 ≠ 0) &&
        (readChunks demoW t.2.1 st [7, 8, 30]).check fun u =>
          decide (u.2.2 = [(blob 20 40).take 7, ((blob 20 40).drop 7).take 8, (blob 20 40).drop 15]))
    1 (fun _ => 0) demoW0 noIdx demoVarW0 VLog.empty (demoWPuts ++ [.flush]) = true := by
  decide +kernel

end EDB
