import Verif.Proofs.DemoVar
import Verif.Proofs.VarCrash

/-!
# C30: variable data reaches storage before the record that refers to it
-/

namespace EDB

open Spec (Log VLog VOp VOut)

/-- Data page `n`, as found in the data file `F`: it holds the records of page `n` of the log, every record that was
inserted with variable data refers to a place of the variable data file `G` where exactly these bytes are, and every
other record refers to nothing. -/
def VarStored (c : Cfg) (l : VLog) (F G : Nat → Option Page) (n : Nat) : Prop :=
  ∃ p, F (n % c.N) = some p ∧ recs c p = l.log.pages.getD n [] ∧ ∀ i, i < pageCount p →
    match l.var (slotKey c p i) with
    | some b => Spec.fetch c.pageSize c.vhdr c.numVar G (slotLoc c p i) = some b
    | none => slotLoc c p i = noVar

/-- C30 (`_partial`: see below).  After any history of operations (flushes included) power fails during the next
operation, which is not a flush, after any number of the storage operations on the two files: every data page written
by then and not reclaimed by the operation has the variable data of all its records in the variable data file.

Missing: power failures during `embedDBFlush`, which writes the data page first (then the claim is false:
`C30_false_flush`); variable data files that have wrapped (`varNeed`; see `C30_life_partial`); the conditions of C26. -/
theorem C30_partial (c : Cfg) (lo K : Nat) (ops : List VOp) (op : VOp) (rb vrb : Page) (sm : Nat → Nat × Nat) (hvf : Bool) (x x1 x2 : Idx)
    (hok : c.Ok K) (hv : c.VFile) (hB : Bounds c lo K (ops.length + 1)) (h128 : c.maxRec ≤ 128) (hC : ClientV c lo K (ops ++ [op]))
    (hroom : varNeed c 0 (ops ++ [op]) ≤ c.numVar * c.vcap)
    (hcache : CacheOk c (Data.fresh c rb sm) x (Var.fresh c vrb hvf) (ops ++ [op]))
    (hclean : Along c (CleanRead c) (Data.fresh c rb sm) x (Var.fresh c vrb hvf) (ops ++ [op]))
    (hidx : IdxSafe c (Data.fresh c rb sm) x (Var.fresh c vrb hvf) (ops ++ [op]))
    (d d' : Data) (v v' : Var) (o : VOut)
    (h1 : runOpsV c (Data.fresh c rb sm) x (Var.fresh c vrb hvf) ops = .ok (d, x1, v))
    (h2 : stepV c d x1 v op = .ok (d', x2, v', o)) (hop : op ≠ .flush)
    (l : VLog) (hl : l = Spec.vlogAfter c.maxRec VLog.empty (historyV c (Data.fresh c rb sm) x (Var.fresh c vrb hvf) (ops ++ [op])))
    (m : Nat) (F G : Nat → Option Page) (hcrash : CrashV c d x1 v op m F G)
    (n : Nat) (hn : Spec.dropped c.N c.B d'.next ≤ n) (hm : n < m) : VarStored c l F G n := by
  obtain ⟨d0, x0, v0, g, e1, T, t1, C1, gt1, hr, cf1, -, cr1, -⟩ := reachX_ok (E := False) hok hv h128 (fun h => h.elim) ops [op] hB (by omega)
    rb vrb sm hvf x 0 hC (Or.inr hroom) hcache (fun h => h.elim) hclean hidx
  rw [h1] at e1
  simp only [Res.ok.injEq, Prod.mk.injEq] at e1
  obtain ⟨rfl, rfl, rfl⟩ := e1
  obtain ⟨l0, hl0⟩ : ∃ l0, l0 = Spec.vlogAfter c.maxRec VLog.empty (historyV c (Data.fresh c rb sm) x (Var.fresh c vrb hvf) ops) := ⟨_, rfl⟩
  rw [← hl0] at T gt1
  obtain ⟨d2, x2', v2, l', g', o', s1, s2, s3, -, -, -, s4⟩ := T.stepX hok (Or.inl rfl) hv hB h128 x1 (by omega) C1 C1.low gt1
    (fun hc => cf1.head hok T hc) (fun h => h.elim) (fun h => absurd h hop) (m := 0) hr
  rw [h2] at s1
  simp only [Res.ok.injEq, Prod.mk.injEq] at s1
  obtain ⟨rfl, rfl, rfl, rfl⟩ := s1
  obtain ⟨T', t2, -, -⟩ := s4 (fun k hk => by subst hk; exact cr1.1)
  have hll : l = l' := by
    rw [hl, history_split _ _ _ _ _ h1, vlogAfter_append, ← hl0, historyV]
    simp only [h2]
    cases op with
    | put k a b =>
      rcases s2 with ⟨rfl, rfl⟩ | ⟨rfl, rfl, -⟩ <;> rfl
    | flush => exact absurd rfl hop
    | get k =>
      obtain ⟨rfl, r, out, rfl, -⟩ := s2
      rfl
    | getVar k =>
      obtain ⟨rfl, r, out, bs, rfl, -⟩ := s2
      rfl
  subst hll
  have hdrop := T'.tab.dropped_max hok.B0 (dvd_zero _)
  rw [Nat.zero_max, ← T'.tab.sim.next] at hdrop
  rw [← hdrop] at hn
  have vmin0 := T.inv.wrap.resolve_right id
  have hsum := T.inv.sum0 vmin0
  have hsum' := T'.inv.sum0 (T'.inv.wrap.resolve_right id)
  -- pages that were there before
  have hbefore : ∀ (G : Nat → Option Page), (∀ ph, ph < v.next → ph < c.numVar → G ph = v.dev.file ph) →
      (∀ r ∈ l0.log.all, l.var r.1 = l0.var r.1) → l.log.pages.getD n [] = l0.log.pages.getD n [] → d.min ≤ n → n < d.next →
      VarStored c l d.dev.file G n := by
    intro G hG hvar hpg n1 n2
    have n3 := n2
    rw [T.tab.sim.next] at n3
    obtain ⟨p, p1, p2, -⟩ := T.tab.sim.stored n n1 n3
    refine ⟨p, p1, by rw [p2, hpg, List.getD_eq_getElem?_getD, List.getElem?_eq_getElem n3]; rfl, ?_⟩
    intro i hi
    obtain ⟨q1, q2⟩ := T.locs n n1 n2 p p1
    exact page_ok hv T.inv T.ents T.vars T.novar hvar hG q1 q2 (fun i hi => slot_in_page T.tab.sim n1 n2 p1 hi) hi
  have hdrop0 := T.tab.dropped_max hok.B0 (dvd_zero _)
  rw [Nat.zero_max, ← T.tab.sim.next] at hdrop0
  cases op with
  | flush => exact absurd rfl hop
  | get k =>
    have hll : l = l0 := s2.1
    cases hcrash
    have e : d'.next = d.next := by rw [T'.tab.sim.next, T.tab.sim.next, hll]
    refine hbefore _ (fun _ _ _ => rfl) (fun r _ => by rw [hll]) (by rw [hll]) ?_ hm
    rw [hdrop0, ← e, ← hdrop]; exact hn
  | getVar k =>
    have hll : l = l0 := s2.1
    cases hcrash with
    | getVar k j h =>
      rw [h2] at h
      simp only [Res.ok.injEq, Prod.mk.injEq] at h
      obtain ⟨rfl, rfl, rfl, rfl⟩ := h
      have e : d'.next = d.next := by rw [T'.tab.sim.next, T.tab.sim.next, hll]
      refine hbefore _ (fun ph p1 _ => cut_keeps (Grow.stepGetVar hv h2) (by omega) hsum j p1) (fun r _ => by rw [hll]) (by rw [hll]) ?_ hm
      rw [hdrop0, ← e, ← hdrop]; exact hn
  | put k a b =>
    obtain ⟨c1, c2, c3, c4⟩ := C1.put k a b (by simp)
    have hgt : ∀ r ∈ l0.log.all, r.1 < k := fun r hr => gt1 r hr k (by simp [Spec.offeredV])
    have hcount : pageCount d.wbuf = l0.log.buf.length := by rw [← T.tab.sim.buf, recs_length]
    obtain ⟨gr, r, w, hx, -⟩ := put_parts hv hok.plain h2
    obtain ⟨f1, f2, f3, f4, f5⟩ := put_file hok hv hB T.tab (by omega) _ _ c3 c1 (by omega) hgt
      (fun h => cf1.head hok T (show pageCount d.wbuf ≥ c.maxRec by omega)) hx
    have hvar : ∀ r ∈ l0.log.all, l.var r.1 = l0.var r.1 := by
      intro r hr
      rcases s2 with ⟨-, rfl⟩ | ⟨-, rfl, -⟩
      · simp only [VLog.put]
        rw [if_neg (by have := hgt r hr; omega)]
      · rfl
    have hcap := hv.cap4
    obtain ⟨g1, T1, t1', -, -, t3, -, t5⟩ := T.pre hok hv hB.key (fun h => h.elim) (room_of hv hr (by
      unfold varNeed padOf
      by_cases hf : pageCount d.wbuf ≥ c.maxRec
      · rw [if_pos hf]
        have : 1 ≤ (pageCount d.wbuf + (Spec.offeredV [VOp.put k a b]).length) / c.maxRec :=
          (Nat.one_le_div_iff hok.cap).mpr (by omega)
        have := Nat.mul_le_mul_left c.vcap this
        omega
      · rw [if_neg hf]
        have : 3 ≤ opBytes c [VOp.put k a b] := by
          cases b <;> simp only [opBytes] <;> omega
        omega)) b.isSome
    have vmin1 := T1.inv.wrap.resolve_right id
    have hsum1 := T1.inv.sum0 vmin1
    simp only at hsum1
    -- pages of the new data file
    have hafter : ∀ F G : Nat → Option Page, F (n % c.N) = d'.dev.file (n % c.N) → n < d'.next →
        (∀ ph, ph < (preVar c d v).next → ph < c.numVar → G ph = (preVar c d v).dev.file ph) → VarStored c l F G n := by
      intro F G hF hlt hG
      have hlt' := hlt
      rw [T'.tab.sim.next] at hlt'
      obtain ⟨p, p1, p2, -⟩ := T'.tab.sim.stored n hn hlt'
      refine ⟨p, by rw [hF]; exact p1, by rw [p2, List.getD_eq_getElem?_getD, List.getElem?_eq_getElem hlt']; rfl, ?_⟩
      obtain ⟨q1, q2, q3⟩ := f5 (fun p => LocOk c g1.es p ∧ DataBelow c g1.es ((preVar c d v).next * c.vcap) p ∧
          ∀ i, i < pageCount p → ∃ r ∈ l0.log.all, r.1 = slotKey c p i)
        (fun p q hs hq => ⟨hs.locOk hq.1, hs.below hq.2.1, fun i hi => by
          rw [hs.count] at hi; rw [hs.slotKey]; exact hq.2.2 i hi⟩)
        (fun n n1 n2 p hp => ⟨(T1.locs n n1 n2 p hp).1, (T1.locs n n1 n2 p hp).2, fun i hi => slot_in_page T.tab.sim n1 n2 hp hi⟩)
        (fun hf => ⟨T1.lbuf, t5 hf, fun i hi => slot_in_buf T.tab.sim hi⟩) n hn hlt p p1
      intro i hi
      exact page_ok hv T1.inv T1.ents T1.vars T1.novar hvar hG q1 q2 q3 hi
    cases hcrash with
    | putBefore k a b j =>
      have hpg : l.log.pages.getD n [] = l0.log.pages.getD n [] := by
        rcases s2 with ⟨-, rfl⟩ | ⟨-, rfl, -⟩
        · simp only [VLog.put, Log.put]
          have := T.tab.sim.next
          split_ifs
          · simp only
            rw [List.getD_eq_getElem?_getD, List.getD_eq_getElem?_getD, List.getElem?_append_left (by omega)]
          · rfl
        · rfl
      exact hbefore _ (fun ph p1 _ => cut_keeps (Grow.pre hv v d) (by omega) hsum j p1) hvar hpg (by omega) hm
    | putData k a b j h =>
      rw [h2] at h
      simp only [Res.ok.injEq, Prod.mk.injEq] at h
      obtain ⟨rfl, rfl, rfl, rfl⟩ := h
      obtain ⟨y1, y2⟩ := f4 j n hn hm
      exact hafter _ _ y2 y1 (fun _ _ _ => rfl)
    | putAfter k a b j h =>
      rw [h2] at h
      simp only [Res.ok.injEq, Prod.mk.injEq] at h
      obtain ⟨rfl, rfl, rfl, rfl⟩ := h
      exact hafter _ _ rfl hm (fun ph p1 _ => cut_keeps gr (by omega) hsum1 j p1)

/-! ### The hypotheses are satisfiable -/

/-- Records with 40 bytes and with none, a read and a flush before; then an insert that completes a data page. -/
def demoCOps : List VOp :=
  [.put 1 (dat 1) (some (blob 40 10)), .flush, .getVar 1, .put 2 (dat 2) (some (blob 30 20)), .put 3 (dat 3) none]

/-- The operation during which power fails. -/
def demoCOp : VOp := .put 4 (dat 4) (some (blob 5 30))

example : demoV.Ok 1000 ∧ demoV.VFile ∧ Bounds demoV 0 1000 (demoCOps.length + 1) ∧ demoV.maxRec ≤ 128 ∧
    ClientV demoV 0 1000 (demoCOps ++ [demoCOp]) ∧ varNeed demoV 0 (demoCOps ++ [demoCOp]) ≤ demoV.numVar * demoV.vcap ∧
    CacheOk demoV demoV0 noIdx demoVar0 (demoCOps ++ [demoCOp]) ∧ Along demoV (CleanRead demoV) demoV0 noIdx demoVar0 (demoCOps ++ [demoCOp]) ∧
    IdxSafe demoV demoV0 noIdx demoVar0 (demoCOps ++ [demoCOp]) ∧ demoCOp ≠ .flush :=
  ⟨demoV_ok _, demoV_vok, demoV_bounds (by decide) (by decide), by decide, clientVB_ok (by decide +kernel), by decide +kernel,
    Or.inl (by decide +kernel), alongB_ok (cleanB_ok (c := demoV)) _ _ _ _ (by decide +kernel), idxSafe_plain rfl _ _ _ _, by decide⟩

/-- Right after data page 1 has been written it is in the file, and its first record's 30 bytes are in the variable data
file. -/
example : ((runOpsV demoV demoV0 noIdx demoVar0 demoCOps).check fun s => (stepV demoV s.1 s.2.1 s.2.2 demoCOp).check fun t =>
    decide (t.1.next = 2 ∧ (between s.1.dev t.1.dev).length = 1 ∧ (between s.2.2.dev (preVar demoV s.1 s.2.2).dev).length = 1) &&
    match cutBetween demoV s.1.dev t.1.dev 1 1 with
    | none => false
    | some p => decide (recs demoV p = [(2, dat 2), (3, dat 3)] ∧ slotLoc demoV p 1 = noVar ∧
        Spec.fetch 34 8 16 (preVar demoV s.1 s.2.2).dev.file (slotLoc demoV p 0) = some (blob 30 20))) = true := by
  decide +kernel

end EDB
