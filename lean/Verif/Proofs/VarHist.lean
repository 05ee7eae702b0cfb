import Verif.Proofs.VarSteps
import Verif.Proofs.Reach

/-! Helper lemmas: client histories on a table with variable data. -/

namespace EDB

open Spec (Log VLog VOp VOut)

/-- A client that plays by the rules: keys offered in ascending order, keys and data of the right size. -/
structure ClientV (c : Cfg) (lo K : Nat) (ops : List VOp) : Prop where
  asc : (Spec.offeredV ops).Pairwise (· < ·)
  put : ∀ k v b, VOp.put k v b ∈ ops → lo ≤ k ∧ k + 1 < K ∧ v.length = c.dataSize ∧ ∀ bs, b = some bs → bs.length < 2 ^ 32
  get : ∀ k, VOp.get k ∈ ops → k < K
  getVar : ∀ k, VOp.getVar k ∈ ops → k < K

/-- Bytes of variable pages the operations take at most, apart from the pages started because a data page is complete. -/
def opBytes (c : Cfg) : List VOp → Nat
  | [] => 0
  | .put _ _ none :: t => 3 + opBytes c t
  | .put _ _ (some bs) :: t => 7 + bs.length + opBytes c t
  | .get _ :: t => opBytes c t
  | _ :: t => c.vcap + opBytes c t

/-- Bytes of variable pages the operations take at most: 7 more than its length for each piece of data, and one page for
each data page completed, each flush, and each read of variable data. -/
def varNeed (c : Cfg) (buffered : Nat) (ops : List VOp) : Nat :=
  opBytes c ops + c.vcap * ((buffered + (Spec.offeredV ops).length) / c.maxRec)

/-- Does the operation complete a data page? -/
def completesV (c : Cfg) (d : Data) : VOp → Prop
  | .put _ _ _ => pageCount d.wbuf ≥ c.maxRec
  | .flush => pageCount d.wbuf ≠ 0
  | _ => False

/-- The log after an operation that is not refused. -/
def afterV (cap : Nat) (l : VLog) : VOp → VLog
  | .put k v b => l.put cap k v b
  | .flush => ⟨l.log.flush, l.var⟩
  | _ => l

/-- The variable page in the write buffer contains data. -/
def PageUsed (c : Cfg) (v : Var) : Prop := v.loc % c.pageSize ≠ c.vhdr ∨ vkey c v.wbuf ≠ 0

/-- What is required of the state when the variable data file may have wrapped. -/
def WrapSafe (c : Cfg) (d : Data) (v : Var) : VOp → Prop
  | .put _ _ _ => pageCount d.wbuf ≥ c.maxRec → PageUsed c v
  | .getVar k => VSync (readFrom c d v k)
  | _ => True

/-- The result observed, and the log after it. -/
def VObs (c : Cfg) (d : Data) (l : VLog) (g' : Gh) : VOp → VOut → VLog → Prop
  | .put k a b, o, l' => (o = .code 0 ∧ l' = l.put c.maxRec k a b) ∨ (o = .code 1 ∧ l' = l ∧ Spec.MayRefuse c.maxRec l.log)
  | .flush, o, l' => o = .code 0 ∧ l' = ⟨l.log.flush, l.var⟩
  | .get k, o, l' => l' = l ∧ ∃ r out, o = .got r out ∧ Spec.Out.got r out = Spec.answer (l.log.live d.min) k
  | .getVar k, o, l' => l' = l ∧ ∃ r out bs, o = .gotVar r out bs ∧
      match Spec.lookup (l.log.live d.min) k with
      | none => r = -1 ∧ out = none ∧ bs = none
      | some a => out = some a ∧ VarAns c g' k r bs

section
variable {c : Cfg} {lo lv K mn : Nat} {E : Mode} {d : Data} {v : Var} {l : VLog} {g : Gh}

theorem ClientV.tail {op : VOp} {ops : List VOp} (h : ClientV c lo K (op :: ops)) : ClientV c lo K ops where
  asc := by
    have := h.asc
    cases op with
    | put k v b => exact (List.pairwise_cons.mp this).2
    | flush => exact this
    | get k => exact this
    | getVar k => exact this
  put k v b hm := h.put k v b (List.mem_cons_of_mem _ hm)
  get k hm := h.get k (List.mem_cons_of_mem _ hm)
  getVar k hm := h.getVar k (List.mem_cons_of_mem _ hm)

theorem ClientV.low {ops : List VOp} (h : ClientV c lo K ops) : ∀ k ∈ Spec.offeredV ops, lo ≤ k := by
  induction ops with
  | nil => intro k hk; cases hk
  | cons op ops ih =>
    intro k hk
    cases op with
    | put k' a b =>
      rcases List.mem_cons.mp hk with h1 | h1
      · rw [h1]; exact (h.put k' a b (by simp)).1
      · exact ih h.tail k h1
    | flush => exact ih h.tail k hk
    | get k' => exact ih h.tail k hk
    | getVar k' => exact ih h.tail k hk

theorem offeredV_tail {op : VOp} {ops : List VOp} {k : Nat} (h : k ∈ Spec.offeredV ops) : k ∈ Spec.offeredV (op :: ops) := by
  cases op with
  | put k' a b => exact List.mem_cons_of_mem _ h
  | flush => exact h
  | get k' => exact h
  | getVar k' => exact h

theorem VTableM.hasData (hv : c.VFile) (T : VTableM c lo lv K mn E d v l g) (hE : E) (hu : PageUsed c v) : HasData c g v := by
  rcases hu with hu | hu
  · refine T.inv.hasData hE ?_
    intro h0
    obtain ⟨o1, -, -⟩ := T.inv.sim.off hv T.opn
    rw [h0, Nat.sub_self] at o1
    exact hu o1
  · rcases (T.inv.keys hE).buf with ⟨-, h⟩ | h
    · exact absurd h hu
    · exact h

/-- Without wrap-around the caches are right. -/
theorem VTableM.sync (hv : c.VFile) (hK : K ≤ 256 ^ c.keySize) (hE : ¬ E) (T : VTableM c lo lv K mn E d v l g) (key : Nat)
    (hr : RoomFor c E (v.next + 1)) : VSync (readFrom c d v key) := by
  unfold readFrom
  split_ifs
  · obtain ⟨g', z, v', f1, f2, -⟩ := T.inv.flush hv hK T.opn (fun _ => hr)
    rw [f1]
    exact f2.sync hv (f2.wrap.resolve_right hE)
  · exact T.inv.sync hv (T.inv.wrap.resolve_right hE)

theorem room_of (hv : c.VFile) {n m k : Nat} (h : E ∨ n + m ≤ c.numVar * c.vcap) (hk : k ≤ m) : RoomFor c E ((n + k) / c.vcap) := by
  rcases h with h | h
  · exact Or.inl h
  · right
    have := hv.cap4
    exact Nat.div_le_of_le_mul (by rw [Nat.mul_comm]; omega)

theorem room_next (hv : c.VFile) (T : VTableM c lo lv K mn E d v l g) {m : Nat} (h : E ∨ g.s.length + m ≤ c.numVar * c.vcap)
    (hm : c.vcap ≤ m) : RoomFor c E (v.next + 1) := by
  have hcap := hv.cap4
  have := room_of hv h hm
  rw [Nat.add_div_right _ (by omega), div_page T.inv.sim.lo T.opn] at this
  exact this

theorem VTableM.stepX (hok : c.Ok K) (hs : mn = 0 ∨ c.maxErr ≤ 1) (hv : c.VFile) {P : Nat} (hB : Bounds c lo K P) (h128 : c.maxRec ≤ 128)
    (T : VTableM c lo lv K mn E d v l g) (x : Idx) {op : VOp} {ops : List VOp} (hP : d.next + 1 ≤ P) (C : ClientV c lo K (op :: ops))
    (hlv : ∀ k ∈ Spec.offeredV (op :: ops), lv ≤ k) (hgt : ∀ r ∈ l.log.all, ∀ k ∈ Spec.offeredV (op :: ops), r.1 < k)
    (hcache : completesV c d op → d.buffered ≠ some (d.next % c.N)) (hw : E → WrapSafe c d v op) (hx : op = .flush → IdxRoom c x)
    {m : Nat} (hroom : E ∨ g.s.length + (varNeed c (pageCount d.wbuf) (op :: ops) + m) ≤ c.numVar * c.vcap) :
    ∃ d' x' v' l' g' o, stepV c d x v op = .ok (d', x', v', o) ∧ VObs c d l g' op o l' ∧ v.next ≤ v'.next ∧
      (∃ t, g'.es = g.es ++ t ∧ ∀ e ∈ t, ∃ a b, op = .put e.key a (some b) ∧ o = .code 0 ∧ e.a / c.vcap = (preVar c d v).next) ∧
      (∀ k, op = .getVar k → g'.es = g.es ∧ (g'.vmin = 0 ∨ E) ∧ VSync v' ∧ VInv c E lv K g' v') ∧
      (∀ k a b, op = .put k a (some b) → o = .code 0 → (∃ e ∈ g'.es, e.key = k ∧ e.bs = b ∧
        e.a / c.vcap = (preVar c d v).next) ∧ (E → HasData c g' v')) ∧
      ((∀ k, op = .getVar k → inBuf c d k → d.buffered = none) → VTableM c lo lv K mn E d' v' l' g' ∧ d'.next ≤ d.next + 1 ∧
        (∀ r ∈ l'.log.all, ∀ k ∈ Spec.offeredV ops, r.1 < k) ∧
        (E ∨ g'.s.length + (varNeed c (pageCount d'.wbuf) ops + m) ≤ c.numVar * c.vcap)) := by
  have hcap0 := hok.cap
  have hcap4 := hv.cap4
  have hcount : pageCount d.wbuf = l.log.buf.length := by rw [← T.tab.sim.buf, recs_length]
  cases op with
  | put k a b =>
    obtain ⟨h1, h2, h3, h4⟩ := C.put k a b (by simp)
    have hasc := List.pairwise_cons.mp C.asc
    have hn : (Spec.offeredV (VOp.put k a b :: ops)).length = (Spec.offeredV ops).length + 1 := rfl
    -- bytes
    have hbytes : putSize c d b + varNeed c (if pageCount d.wbuf ≥ c.maxRec then 1 else pageCount d.wbuf + 1) ops ≤
        varNeed c (pageCount d.wbuf) (VOp.put k a b :: ops) := by
      have hb : opBytes c (VOp.put k a b :: ops) = (3 + storedLen b) + opBytes c ops := by
        cases b with
        | none => rfl
        | some bs => simp only [opBytes, storedLen]; omega
      unfold varNeed putSize padOf
      rw [hb, hn]
      by_cases hf : pageCount d.wbuf ≥ c.maxRec
      · rw [if_pos hf, if_pos hf]
        have hle : (1 + (Spec.offeredV ops).length) / c.maxRec + 1 ≤
            (pageCount d.wbuf + ((Spec.offeredV ops).length + 1)) / c.maxRec := by
          rw [← Nat.add_div_right _ hcap0]
          exact Nat.div_le_div_right (by omega)
        have := Nat.mul_le_mul_left c.vcap hle
        rw [Nat.mul_add, Nat.mul_one] at this
        omega
      · rw [if_neg hf, if_neg hf]
        rw [show pageCount d.wbuf + 1 + (Spec.offeredV ops).length = pageCount d.wbuf + ((Spec.offeredV ops).length + 1) by omega]
        omega
    obtain ⟨d', x', v', g', n1, n2, ⟨e, T', q1, q2⟩ | ⟨e, T', q1, q2⟩⟩ := T.put hok hs hv hB hP x h3 h1 (hlv k (by simp [Spec.offeredV])) h2 h4
      (fun r hr => hgt r hr k (by simp [Spec.offeredV])) hcache
      (fun hE hf => T.hasData hv hE (hw hE hf))
      (room_of hv hroom (by omega))
    · refine ⟨d', x', v', _, g', _, e, Or.inl ⟨rfl, rfl⟩, n1, ?_, (fun k h => by cases h), ?_, ?_⟩
      · cases b with
        | none => exact ⟨[], by rw [q2 rfl, List.append_nil], fun e h => by cases h⟩
        | some bs =>
          obtain ⟨⟨e', e1, e2, -, e4⟩, -⟩ := q1 bs rfl
          refine ⟨[e'], e1, fun e h => ?_⟩
          rw [List.mem_singleton.mp h]
          exact ⟨a, bs, by rw [e2], rfl, e4⟩
      · intro k' a' b' he _
        cases he
        obtain ⟨⟨e', e1, e2, e3, e4⟩, e5⟩ := q1 b' rfl
        exact ⟨⟨e', by rw [e1]; exact List.mem_append_right _ (List.mem_singleton.mpr rfl), e2, e3, e4⟩, e5⟩
      · intro _
        have hc' : pageCount d'.wbuf = (l.log.put c.maxRec (k, a)).buf.length := by
          have := congrArg List.length T'.tab.sim.buf
          rw [recs_length] at this
          exact this
        refine ⟨T', ?_, ?_, ?_⟩
        · have := Log_put_pages (L := l.log) c.maxRec (k, a)
          have e1 := T'.tab.sim.next
          have e2 := T.tab.sim.next
          simp only [VLog.put] at e1
          omega
        · intro r hr k' hk'
          simp only [VLog.put] at hr
          rw [Log_put_all] at hr
          rcases List.mem_append.mp hr with h | h
          · exact hgt r h k' (by simp [Spec.offeredV, hk'])
          · rw [List.mem_singleton.mp h]; exact hasc.1 k' hk'
        · rcases hroom with h | h
          · exact Or.inl h
          · right
            have hpc : pageCount d'.wbuf = if pageCount d.wbuf ≥ c.maxRec then 1 else pageCount d.wbuf + 1 := by
              rw [hc', hcount]
              unfold Log.put
              split_ifs <;> simp
            rw [hpc]
            omega
    · refine ⟨d', x', v', _, g', _, e, Or.inr ⟨rfl, rfl, q2⟩, n1, ⟨[], by rw [q1, List.append_nil], fun e h => by cases h⟩, (fun k h => by cases h), ?_, ?_⟩
      · intro k' a' b' _ h0
        exact absurd h0 (by decide)
      · intro _
        refine ⟨T', ?_, fun r hr k' hk' => hgt r hr k' (by simp [Spec.offeredV, hk']), ?_⟩
        · have e1 := T'.tab.sim.next
          have e2 := T.tab.sim.next
          omega
        · rcases hroom with h | h
          · exact Or.inl h
          · right
            have hc' : pageCount d'.wbuf = l.log.buf.length := by rw [← T'.tab.sim.buf, recs_length]
            have hle : varNeed c (pageCount d'.wbuf) ops ≤ varNeed c (if pageCount d.wbuf ≥ c.maxRec then 1 else pageCount d.wbuf + 1) ops := by
              unfold varNeed
              refine Nat.add_le_add_left (Nat.mul_le_mul_left _ (Nat.div_le_div_right ?_)) _
              rw [hc', q2.1]
              split_ifs <;> simp
            omega
  | flush =>
    have hn : varNeed c (pageCount d.wbuf) (VOp.flush :: ops) = c.vcap + varNeed c (pageCount d.wbuf) ops := by
      unfold varNeed; simp only [opBytes, Spec.offeredV]; omega
    obtain ⟨d', x', v', g', e, T', q1, q2, q3⟩ := T.flush hok hs hv hB hP (hx rfl) hcache (room_next hv T hroom (by omega))
    refine ⟨d', x', v', _, g', _, e, ⟨rfl, rfl⟩, q2, ⟨[], by rw [q1, List.append_nil], fun e h => by cases h⟩, (fun k h => by cases h), (fun k a b h => by cases h), ?_⟩
    intro _
    refine ⟨T', ?_, ?_, ?_⟩
    · have := Log_flush_pages (L := l.log)
      have e1 := T'.tab.sim.next
      have e2 := T.tab.sim.next
      simp only at e1
      omega
    · intro r hr k' hk'
      simp only [Log_flush_all] at hr
      exact hgt r hr k' hk'
    · rcases hroom with h | h
      · exact Or.inl h
      · right
        have hc' : pageCount d'.wbuf = l.log.flush.buf.length := by rw [← T'.tab.sim.buf, recs_length]
        have hle : varNeed c (pageCount d'.wbuf) ops ≤ varNeed c (pageCount d.wbuf) ops := by
          unfold varNeed
          refine Nat.add_le_add_left (Nat.mul_le_mul_left _ (Nat.div_le_div_right ?_)) _
          rw [hc']
          unfold Log.flush
          split_ifs <;> simp <;> omega
        omega
  | get k =>
    have hn : varNeed c (pageCount d.wbuf) (VOp.get k :: ops) = varNeed c (pageCount d.wbuf) ops := rfl
    obtain ⟨d', r, out, e, T', q1, q2, q3⟩ := T.get hok hB (by omega) x (by omega) (C.get k (by simp))
    refine ⟨d', x, v, l, g, _, e, ⟨rfl, r, out, rfl, q1⟩, le_refl _, ⟨[], by rw [List.append_nil], fun e h => by cases h⟩, (fun k h => by cases h), (fun k a b h => by cases h), ?_⟩
    intro _
    have hc' : pageCount d'.wbuf = pageCount d.wbuf := by rw [hcount, ← T'.tab.sim.buf, recs_length]
    exact ⟨T', by omega, fun r hr k' hk' => hgt r hr k' hk', by rw [hc']; rw [hn] at hroom; exact hroom⟩
  | getVar k =>
    have hn : varNeed c (pageCount d.wbuf) (VOp.getVar k :: ops) = c.vcap + varNeed c (pageCount d.wbuf) ops := by
      unfold varNeed; simp only [opBytes, Spec.offeredV]; omega
    have hr1 := room_next hv T hroom (by omega)
    have hs : VSync (readFrom c d v k) := by
      by_cases hE : E
      · exact hw hE
      · exact T.sync hv hB.key hE k hr1
    obtain ⟨d', v', g', r, out, bs, e, T', q1, q1', q2, q3, q4, q5, qs, qi, q6⟩ := T.getVar hok hv hB (by omega) x h128 (C.getVar k (by simp)) hs hr1
    refine ⟨d', x, v', l, g', _, e, ⟨rfl, r, out, bs, rfl, q6⟩, q2, ⟨[], by rw [q1, List.append_nil], fun e h => by cases h⟩, (fun k h => ⟨q1, q1', qs, qi⟩), (fun k a b h => by cases h), ?_⟩
    intro hsafe
    have T'' := T' (hsafe k rfl)
    have hc' : pageCount d'.wbuf = pageCount d.wbuf := by rw [hcount, ← T''.tab.sim.buf, recs_length]
    refine ⟨T'', by omega, fun r hr k' hk' => hgt r hr k' hk', ?_⟩
    rw [hc']
    rcases hroom with h | h
    · exact Or.inl h
    · right; omega

theorem stepV_same (hi : c.useIndex = false) {x x' : Idx} {op : VOp} {d' : Data} {v' : Var} {o : VOut}
    (h : stepV c d x v op = .ok (d', x', v', o)) : x' = x := by
  cases op with
  | put k a b =>
    simp only [stepV, putVar] at h
    obtain ⟨⟨d1, x1, v1, r1⟩, h1, h2⟩ := Res.bind_eq_ok h
    simp only [Res.ok.injEq, Prod.mk.injEq] at h2
    obtain ⟨-, rfl, -, -⟩ := h2
    by_cases hu : c.useVdata = true
    · rw [if_pos hu] at h1
      cases b with
      | none =>
        simp only at h1
        obtain ⟨⟨d2, x2, r2, w2⟩, h3, h4⟩ := Res.bind_eq_ok h1
        simp only [Res.ok.injEq, Prod.mk.injEq] at h4
        rw [← h4.2.1]
        exact putX_same hi h3
      | some bs =>
        simp only at h1
        obtain ⟨⟨d2, x2, r2, w2⟩, h3, h4⟩ := Res.bind_eq_ok h1
        have h5 := putX_same hi h3
        simp only at h4
        by_cases hr0 : r2 ≠ 0
        · rw [if_pos hr0] at h4
          simp only [Res.ok.injEq, Prod.mk.injEq] at h4
          rw [← h4.2.1]; exact h5
        · rw [if_neg hr0] at h4
          obtain ⟨v2, -, h6⟩ := Res.bind_eq_ok h4
          simp only [Res.ok.injEq, Prod.mk.injEq] at h6
          rw [← h6.2.1]; exact h5
    · rw [if_neg hu] at h1
      simp only [Res.ok.injEq, Prod.mk.injEq] at h1
      exact h1.2.1.symm
  | flush =>
    simp only [stepV, flushV] at h
    obtain ⟨⟨d1, x1, v1, r1⟩, h1, h2⟩ := Res.bind_eq_ok h
    simp only [Res.ok.injEq, Prod.mk.injEq] at h2
    obtain ⟨-, rfl, -, -⟩ := h2
    obtain ⟨⟨d2, x2, r2, w2⟩, h3, h4⟩ := Res.bind_eq_ok h1
    have h5 := flushX_same hi h3
    simp only at h4
    split_ifs at h4
    · simp only [Res.ok.injEq, Prod.mk.injEq] at h4
      rw [← h4.2.1]; exact h5
    · simp only [Res.ok.injEq, Prod.mk.injEq] at h4
      rw [← h4.2.1]; exact h5
  | get k =>
    simp only [stepV] at h
    obtain ⟨⟨d1, r1, o1⟩, -, h2⟩ := Res.bind_eq_ok h
    simp only [Res.ok.injEq, Prod.mk.injEq] at h2
    exact h2.2.1.symm
  | getVar k =>
    simp only [stepV] at h
    obtain ⟨⟨d1, v1, r1, o1, s1⟩, -, h2⟩ := Res.bind_eq_ok h
    obtain ⟨⟨v2, b2⟩, -, h4⟩ := Res.bind_eq_ok h2
    simp only [Res.ok.injEq, Prod.mk.injEq] at h4
    exact h4.2.1.symm

theorem runOpsV_same (hi : c.useIndex = false) {x x' : Idx} {d' : Data} {v' : Var} :
    ∀ {ops : List VOp} {d : Data} {v : Var}, runOpsV c d x v ops = .ok (d', x', v') → x' = x := by
  intro ops
  induction ops with
  | nil =>
    intro d v h
    simp only [runOpsV, Res.ok.injEq, Prod.mk.injEq] at h
    exact h.2.1.symm
  | cons op ops ih =>
    intro d v h
    simp only [runOpsV] at h
    obtain ⟨⟨d1, x1, v1, o1⟩, h1, h2⟩ := Res.bind_eq_ok h
    have := stepV_same hi h1
    subst this
    exact ih h2

theorem idxRoom_plain (hi : c.useIndex = false) (x : Idx) : IdxRoom c x := fun h => by rw [hi] at h; cases h

theorem VTableM.step (hok : c.Ok K) (hs : mn = 0 ∨ c.maxErr ≤ 1) (hv : c.VOk) {P : Nat} (hB : Bounds c lo K P) (h128 : c.maxRec ≤ 128)
    (T : VTableM c lo lv K mn E d v l g) (x : Idx) {op : VOp} {ops : List VOp} (hP : d.next + 1 ≤ P) (C : ClientV c lo K (op :: ops))
    (hlv : ∀ k ∈ Spec.offeredV (op :: ops), lv ≤ k) (hgt : ∀ r ∈ l.log.all, ∀ k ∈ Spec.offeredV (op :: ops), r.1 < k)
    (hcache : completesV c d op → d.buffered ≠ some (d.next % c.N)) (hw : E → WrapSafe c d v op)
    {m : Nat} (hroom : E ∨ g.s.length + (varNeed c (pageCount d.wbuf) (op :: ops) + m) ≤ c.numVar * c.vcap) :
    ∃ d' v' l' g' o, stepV c d x v op = .ok (d', x, v', o) ∧ VObs c d l g' op o l' ∧ v.next ≤ v'.next ∧
      (∃ t, g'.es = g.es ++ t ∧ ∀ e ∈ t, ∃ a b, op = .put e.key a (some b) ∧ o = .code 0 ∧ e.a / c.vcap = (preVar c d v).next) ∧
      (∀ k, op = .getVar k → g'.es = g.es ∧ (g'.vmin = 0 ∨ E) ∧ VSync v' ∧ VInv c E lv K g' v') ∧
      (∀ k a b, op = .put k a (some b) → o = .code 0 → (∃ e ∈ g'.es, e.key = k ∧ e.bs = b ∧
        e.a / c.vcap = (preVar c d v).next) ∧ (E → HasData c g' v')) ∧
      ((∀ k, op = .getVar k → inBuf c d k → d.buffered = none) → VTableM c lo lv K mn E d' v' l' g' ∧ d'.next ≤ d.next + 1 ∧
        (∀ r ∈ l'.log.all, ∀ k ∈ Spec.offeredV ops, r.1 < k) ∧
        (E ∨ g'.s.length + (varNeed c (pageCount d'.wbuf) ops + m) ≤ c.numVar * c.vcap)) := by
  obtain ⟨d', x', v', l', g', o, h1, h2⟩ := T.stepX hok hs hv hB h128 x hP C hlv hgt hcache hw (fun _ => idxRoom_plain hv.idx x) hroom
  have := stepV_same hv.idx h1
  subst this
  exact ⟨d', v', l', g', o, h1, h2⟩

/-- A read of variable data after which the read cache is still right. -/
theorem VTableM.safe (T : VTableM c lo lv K mn E d v l g) {k : Nat} (h : Spec.NotBuffered l k) : inBuf c d k → d.buffered = none := by
  rintro ⟨i, h1, h2⟩
  rcases h with h | h
  · cases hb : d.buffered with
    | none => rfl
    | some ph =>
      have := (T.tab.sim.cacheN ph hb).2
      rw [T.tab.sim.next, h] at this
      simp at this
  · exact absurd h2 (h (slotKey c d.wbuf i, slotData c d.wbuf i) (by rw [← T.tab.sim.buf]; exact mem_recs.mpr ⟨i, h1, rfl⟩))

/-- The answers that `VObs` allows. -/
theorem VObs.answer {L : List Rec} (T : VTableM c lo lv K mn E d v l g) (hkept : L = l.log.live d.min) {g' : Gh} {k : Nat} {o : VOut} {l' : VLog}
    (hes : g'.es = g.es)
    (h : VObs c d l g' (.getVar k) o l') :
    Spec.vAnswerOrGone L l.var k o ∧ (g'.vmin = 0 → o = Spec.vAnswer L l.var k) := by
  obtain ⟨-, r, out, bs, rfl, h⟩ := h
  subst hkept
  unfold Spec.vAnswerOrGone Spec.vAnswer
  cases hl : Spec.lookup (l.log.live d.min) k with
  | none =>
    rw [hl] at h
    obtain ⟨rfl, rfl, rfl⟩ := h
    exact ⟨Or.inl rfl, fun _ => rfl⟩
  | some a =>
    rw [hl] at h
    obtain ⟨rfl, h⟩ := h
    rcases h with ⟨rfl, rfl, hno⟩ | ⟨e, e1, rfl, ⟨e2, rfl, rfl⟩ | ⟨e2, rfl, rfl⟩⟩
    · have : l.var k = none := by
        have hsorted := Log_live_sorted T.tab.sim.sorted d.min
        have hm := (lookup_eq_some hsorted).mp hl
        exact T.novar (k, a) (live_le T.tab.sim.amin hm) (fun e he => hno e (by rw [hes]; exact he))
      simp only [this]
      exact ⟨Or.inl trivial, fun _ => trivial⟩
    · have := T.vars e (by rw [← hes]; exact e1)
      refine ⟨Or.inr ⟨a, rfl, by rw [this]; rfl, rfl⟩, fun h0 => by rw [h0] at e2; exact absurd e2 (Nat.not_lt_zero _)⟩
    · have := T.vars e (by rw [← hes]; exact e1)
      simp only [this]
      exact ⟨Or.inl trivial, fun _ => trivial⟩

/-- Every history, with the results as `ans` allows. -/
theorem historyVX_ok (hok : c.Ok K) (hs : mn = 0 ∨ c.maxErr ≤ 1) (hmn : c.B ∣ mn) (hv : c.VFile) {P : Nat} (hB : Bounds c lo K P) (h128 : c.maxRec ≤ 128)
    {limit : VLog → Prop} {kept : Log → List Rec} {ans : VLog → Nat → VOut → Prop}
    (hkept : ∀ l, limit l → kept l.log = l.log.live (max mn (Spec.dropped c.N c.B l.log.pages.length)))
    (hans : ∀ l k o, Spec.vAnswerOrGone (kept l.log) l.var k o → (¬ E → o = Spec.vAnswer (kept l.log) l.var k) → ans l k o)
    {G : Data → Idx → Var → List VOp → Prop}
    (hG : ∀ d v l g x op ops, G d x v (op :: ops) → VTableM c lo lv K mn E d v l g → limit (afterV c.maxRec l op) → completesV c d op →
      d.buffered ≠ some (d.next % c.N))
    (hGw : ∀ d x v op ops, G d x v (op :: ops) → E → WrapSafe c d v op)
    (hGi : ∀ d x v ops, G d x v (.flush :: ops) → IdxRoom c x)
    (hG' : ∀ d x v op ops d' x' v' o, G d x v (op :: ops) → stepV c d x v op = .ok (d', x', v', o) → G d' x' v' ops) :
    ∀ (ops : List VOp) (d : Data) (x : Idx) (v : Var) (l : VLog) (g : Gh), VTableM c lo lv K mn E d v l g → limit l →
      d.next + ops.length ≤ P → ClientV c lo K ops → (∀ k ∈ Spec.offeredV ops, lv ≤ k) → (∀ r ∈ l.log.all, ∀ k ∈ Spec.offeredV ops, r.1 < k) →
      (E ∨ g.s.length + varNeed c (pageCount d.wbuf) ops ≤ c.numVar * c.vcap) → G d x v ops →
      Spec.VRun limit kept ans Spec.NotBuffered c.maxRec l (historyV c d x v ops) := by
  intro ops
  induction ops with
  | nil => intro d x v l g _ _ _ _ _ _ _ _; exact trivial
  | cons op ops ih =>
    intro d x v l g T hlim hP C hlv hgt hroom hg
    rw [List.length_cons] at hP
    have key := fun hl : limit (afterV c.maxRec l op) => T.stepX hok hs hv hB h128 x (by omega) C hlv hgt (hG _ _ _ _ _ _ _ hg T hl)
      (hGw _ _ _ _ _ hg) (fun h => by subst h; exact hGi _ _ _ _ hg) (m := 0) hroom
    have hdrop := T.tab.dropped_max hok.B0 hmn
    cases op with
    | put k a b =>
      unfold historyV
      by_cases hl : limit (l.put c.maxRec k a b)
      · obtain ⟨d', x', v', l', g', o, e, hobs, -, -, -, -, hnext⟩ := key hl
        obtain ⟨T', n1, n2, n3⟩ := hnext (fun k h => by cases h)
        simp only [e]
        intro _
        rcases hobs with ⟨rfl, rfl⟩ | ⟨rfl, rfl, hm⟩
        · exact Or.inl ⟨rfl, ih d' x' v' _ g' T' hl (by omega) C.tail (fun k hk => hlv k (offeredV_tail hk)) n2 n3 (hG' _ _ _ _ _ _ _ _ _ hg e)⟩
        · exact Or.inr ⟨rfl, hm, ih d' x' v' _ g' T' hlim (by omega) C.tail (fun k hk => hlv k (offeredV_tail hk)) n2 n3 (hG' _ _ _ _ _ _ _ _ _ hg e)⟩
      · cases stepV c d x v (VOp.put k a b) <;> exact fun h => absurd h hl
    | flush =>
      unfold historyV
      by_cases hl : limit ⟨l.log.flush, l.var⟩
      · obtain ⟨d', x', v', l', g', o, e, hobs, -, -, -, -, hnext⟩ := key hl
        obtain ⟨T', n1, n2, n3⟩ := hnext (fun k h => by cases h)
        simp only [e]
        intro _
        obtain ⟨rfl, rfl⟩ := hobs
        exact ⟨rfl, ih d' x' v' _ g' T' hl (by omega) C.tail (fun k hk => hlv k (offeredV_tail hk)) n2 n3 (hG' _ _ _ _ _ _ _ _ _ hg e)⟩
      · cases stepV c d x v VOp.flush <;> exact fun h => absurd h hl
    | get k =>
      obtain ⟨d', x', v', l', g', o, e, hobs, -, -, -, -, hnext⟩ := key hlim
      obtain ⟨T', n1, n2, n3⟩ := hnext (fun k h => by cases h)
      unfold historyV
      simp only [e]
      obtain ⟨rfl, r, out, rfl, hr⟩ := hobs
      exact ⟨⟨r, out, rfl, by rw [hkept l' hlim, ← hdrop]; exact hr⟩,
        ih d' x' v' _ g' T' hlim (by omega) C.tail (fun k hk => hlv k (offeredV_tail hk)) n2 n3 (hG' _ _ _ _ _ _ _ _ _ hg e)⟩
    | getVar k =>
      obtain ⟨d', x', v', l', g', o, e, hobs, -, -, hes, -, hnext⟩ := key hlim
      obtain ⟨hes1, hes2, -, -⟩ := hes k rfl
      unfold historyV
      simp only [e]
      obtain ⟨a1, a2⟩ := VObs.answer T (L := kept l.log) (by rw [hkept l hlim, hdrop]) hes1 hobs
      obtain ⟨rfl, -⟩ := hobs
      refine ⟨⟨o, rfl, hans _ _ _ a1 (fun hE => a2 (hes2.resolve_right hE))⟩, ?_⟩
      intro hsafe
      obtain ⟨T', n1, n2, n3⟩ := hnext (fun k' h => by cases h; exact T.safe hsafe)
      exact ih d' x' v' _ g' T' hlim (by omega) C.tail (fun k hk => hlv k (offeredV_tail hk)) n2 n3 (hG' _ _ _ _ _ _ _ _ _ hg e)

/-- The same without an index file. -/
theorem historyV_ok (hok : c.Ok K) (hs : mn = 0 ∨ c.maxErr ≤ 1) (hmn : c.B ∣ mn) (hv : c.VOk) {P : Nat} (hB : Bounds c lo K P) (h128 : c.maxRec ≤ 128)
    {limit : VLog → Prop} {kept : Log → List Rec} {ans : VLog → Nat → VOut → Prop}
    (hkept : ∀ l, limit l → kept l.log = l.log.live (max mn (Spec.dropped c.N c.B l.log.pages.length)))
    (hans : ∀ l k o, Spec.vAnswerOrGone (kept l.log) l.var k o → (¬ E → o = Spec.vAnswer (kept l.log) l.var k) → ans l k o)
    {G : Data → Idx → Var → List VOp → Prop}
    (hG : ∀ d v l g x op ops, G d x v (op :: ops) → VTableM c lo lv K mn E d v l g → limit (afterV c.maxRec l op) → completesV c d op →
      d.buffered ≠ some (d.next % c.N))
    (hGw : ∀ d x v op ops, G d x v (op :: ops) → E → WrapSafe c d v op)
    (hG' : ∀ d x v op ops d' x' v' o, G d x v (op :: ops) → stepV c d x v op = .ok (d', x', v', o) → G d' x' v' ops) :
    ∀ (ops : List VOp) (d : Data) (x : Idx) (v : Var) (l : VLog) (g : Gh), VTableM c lo lv K mn E d v l g → limit l →
      d.next + ops.length ≤ P → ClientV c lo K ops → (∀ k ∈ Spec.offeredV ops, lv ≤ k) → (∀ r ∈ l.log.all, ∀ k ∈ Spec.offeredV ops, r.1 < k) →
      (E ∨ g.s.length + varNeed c (pageCount d.wbuf) ops ≤ c.numVar * c.vcap) → G d x v ops →
      Spec.VRun limit kept ans Spec.NotBuffered c.maxRec l (historyV c d x v ops) := by
  exact historyVX_ok hok hs hmn hv hB h128 hkept hans hG hGw (fun _ x _ _ _ => idxRoom_plain hv.idx x) hG'

/-- The state after a history, with something else that every step keeps. -/
theorem runOpsVX_with (hok : c.Ok K) (hs : mn = 0 ∨ c.maxErr ≤ 1) (hv : c.VFile) {P : Nat} (hB : Bounds c lo K P) (h128 : c.maxRec ≤ 128)
    {G : Data → Idx → Var → List VOp → Prop}
    (hG : ∀ d v l g x op ops, G d x v (op :: ops) → VTableM c lo lv K mn E d v l g → completesV c d op →
      d.buffered ≠ some (d.next % c.N))
    (hGw : ∀ d x v op ops, G d x v (op :: ops) → E → WrapSafe c d v op)
    (hGs : ∀ d x v k ops, G d x v (.getVar k :: ops) → inBuf c d k → d.buffered = none)
    (hGi : ∀ d x v ops, G d x v (.flush :: ops) → IdxRoom c x)
    (hG' : ∀ d x v op ops d' x' v' o l g l' g', G d x v (op :: ops) → VTableM c lo lv K mn E d v l g → VTableM c lo lv K mn E d' v' l' g' →
      VObs c d l g' op o l' → stepV c d x v op = .ok (d', x', v', o) → G d' x' v' ops)
    {J : Data → Idx → VLog → Prop}
    (hJ : ∀ d x v op ops d' x' v' o l g l' g', G d x v (op :: ops) → ClientV c lo K (op :: ops) → J d x l → d.next + 1 ≤ P → VTableM c lo lv K mn E d v l g → VTableM c lo lv K mn E d' v' l' g' →
      VObs c d l g' op o l' → stepV c d x v op = .ok (d', x', v', o) → J d' x' l')
    (rest : List VOp) (m : Nat) :
    ∀ (ops : List VOp) (d : Data) (x : Idx) (v : Var) (l : VLog) (g : Gh), VTableM c lo lv K mn E d v l g →
      d.next + ops.length ≤ P → ClientV c lo K (ops ++ rest) → (∀ k ∈ Spec.offeredV (ops ++ rest), lv ≤ k) → (∀ r ∈ l.log.all, ∀ k ∈ Spec.offeredV (ops ++ rest), r.1 < k) →
      (E ∨ g.s.length + (varNeed c (pageCount d.wbuf) (ops ++ rest) + m) ≤ c.numVar * c.vcap) → G d x v (ops ++ rest) → J d x l →
      ∃ d' x' v' g', runOpsV c d x v ops = .ok (d', x', v') ∧ v.next ≤ v'.next ∧ (∃ t, g'.es = g.es ++ t) ∧
        VTableM c lo lv K mn E d' v' (Spec.vlogAfter c.maxRec l (historyV c d x v ops)) g' ∧ d'.next ≤ d.next + ops.length ∧
        ClientV c lo K rest ∧
        (∀ r ∈ (Spec.vlogAfter c.maxRec l (historyV c d x v ops)).log.all, ∀ k ∈ Spec.offeredV rest, r.1 < k) ∧
        (E ∨ g'.s.length + (varNeed c (pageCount d'.wbuf) rest + m) ≤ c.numVar * c.vcap) ∧ G d' x' v' rest ∧
        J d' x' (Spec.vlogAfter c.maxRec l (historyV c d x v ops)) := by
  intro ops
  induction ops with
  | nil =>
    intro d x v l g T _ C _ hgt hroom hg hj
    exact ⟨d, x, v, g, rfl, le_refl _, ⟨[], by rw [List.append_nil]⟩, T, le_refl _, C, hgt, hroom, hg, hj⟩
  | cons op ops ih =>
    intro d x v l g T hP C hlv hgt hroom hg hj
    rw [List.length_cons] at hP
    rw [List.cons_append] at C hlv hgt hroom hg
    obtain ⟨d', x', v', l', g', o, e, hobs, hn, ⟨t, ht, -⟩, -, -, hnext⟩ := T.stepX hok hs hv hB h128 x (by omega) C hlv hgt
      (hG _ _ _ _ _ _ _ hg T) (hGw _ _ _ _ _ hg) (fun h => by subst h; exact hGi _ _ _ _ hg) hroom
    obtain ⟨T', n1, n2, n3⟩ := hnext (fun k hk => by subst hk; exact hGs _ _ _ _ _ hg)
    have hl : Spec.vlogAfter c.maxRec l (historyV c d x v (op :: ops)) =
        Spec.vlogAfter c.maxRec l' (historyV c d' x' v' ops) := by
      rw [historyV]
      simp only [e]
      cases op with
      | put k a b => rcases hobs with ⟨rfl, rfl⟩ | ⟨rfl, rfl, -⟩ <;> simp [Spec.vlogAfter]
      | flush => obtain ⟨rfl, rfl⟩ := hobs; simp [Spec.vlogAfter]
      | get k => obtain ⟨rfl, -⟩ := hobs; simp [Spec.vlogAfter]
      | getVar k => obtain ⟨rfl, -⟩ := hobs; simp [Spec.vlogAfter]
    obtain ⟨d2, x2, v2, g2, f1, f2, ⟨t2, ht2⟩, f3, f4, f5, f6, f7, f8⟩ := ih d' x' v' l' g' T' (by omega) C.tail (fun k hk => hlv k (offeredV_tail hk)) n2 n3
      (hG' _ _ _ _ _ _ _ _ _ _ _ _ _ hg T T' hobs e) (hJ _ _ _ _ _ _ _ _ _ _ _ _ _ hg C hj (by omega) T T' hobs e)
    rw [hl]
    refine ⟨d2, x2, v2, g2, ?_, by omega, ⟨t ++ t2, by rw [ht2, ht, List.append_assoc]⟩, f3, by rw [List.length_cons]; omega, f5, f6, f7, f8⟩
    simp only [runOpsV, e, Res.ok_bind]
    exact f1

/-- The same without an index file. -/
theorem runOpsV_with (hok : c.Ok K) (hs : mn = 0 ∨ c.maxErr ≤ 1) (hv : c.VOk) {P : Nat} (hB : Bounds c lo K P) (h128 : c.maxRec ≤ 128)
    {G : Data → Idx → Var → List VOp → Prop}
    (hG : ∀ d v l g x op ops, G d x v (op :: ops) → VTableM c lo lv K mn E d v l g → completesV c d op →
      d.buffered ≠ some (d.next % c.N))
    (hGw : ∀ d x v op ops, G d x v (op :: ops) → E → WrapSafe c d v op)
    (hGs : ∀ d x v k ops, G d x v (.getVar k :: ops) → inBuf c d k → d.buffered = none)
    (hG' : ∀ d x v op ops d' x' v' o l g l' g', G d x v (op :: ops) → VTableM c lo lv K mn E d v l g → VTableM c lo lv K mn E d' v' l' g' →
      VObs c d l g' op o l' → stepV c d x v op = .ok (d', x', v', o) → G d' x' v' ops)
    {J : Data → VLog → Prop}
    (hJ : ∀ d x v op d' x' v' o l g l' g', J d l → d.next + 1 ≤ P → VTableM c lo lv K mn E d v l g → VTableM c lo lv K mn E d' v' l' g' →
      VObs c d l g' op o l' → stepV c d x v op = .ok (d', x', v', o) → J d' l')
    (rest : List VOp) (m : Nat) :
    ∀ (ops : List VOp) (d : Data) (x : Idx) (v : Var) (l : VLog) (g : Gh), VTableM c lo lv K mn E d v l g →
      d.next + ops.length ≤ P → ClientV c lo K (ops ++ rest) → (∀ k ∈ Spec.offeredV (ops ++ rest), lv ≤ k) → (∀ r ∈ l.log.all, ∀ k ∈ Spec.offeredV (ops ++ rest), r.1 < k) →
      (E ∨ g.s.length + (varNeed c (pageCount d.wbuf) (ops ++ rest) + m) ≤ c.numVar * c.vcap) → G d x v (ops ++ rest) → J d l →
      ∃ d' v' g', runOpsV c d x v ops = .ok (d', x, v') ∧ v.next ≤ v'.next ∧ (∃ t, g'.es = g.es ++ t) ∧
        VTableM c lo lv K mn E d' v' (Spec.vlogAfter c.maxRec l (historyV c d x v ops)) g' ∧ d'.next ≤ d.next + ops.length ∧
        ClientV c lo K rest ∧
        (∀ r ∈ (Spec.vlogAfter c.maxRec l (historyV c d x v ops)).log.all, ∀ k ∈ Spec.offeredV rest, r.1 < k) ∧
        (E ∨ g'.s.length + (varNeed c (pageCount d'.wbuf) rest + m) ≤ c.numVar * c.vcap) ∧ G d' x v' rest ∧
        J d' (Spec.vlogAfter c.maxRec l (historyV c d x v ops)) := by
  intro ops d x v l g T hP C hlv hgt hroom hg hj
  obtain ⟨d', x', v', g', h1, h2⟩ := runOpsVX_with hok hs hv hB h128 hG hGw hGs (fun _ x _ _ _ => idxRoom_plain hv.idx x) hG' (J := fun d _ l => J d l)
    (fun d x v op _ d' x' v' o l g l' g' _ _ => hJ d x v op d' x' v' o l g l' g') rest m ops d x v l g T hP C
    hlv hgt hroom hg hj
  have := runOpsV_same hv.idx h1
  subst this
  exact ⟨d', v', g', h1, h2⟩

/-- The state after a history. -/
theorem runOpsV_ok (hok : c.Ok K) (hs : mn = 0 ∨ c.maxErr ≤ 1) (hv : c.VOk) {P : Nat} (hB : Bounds c lo K P) (h128 : c.maxRec ≤ 128)
    {G : Data → Idx → Var → List VOp → Prop}
    (hG : ∀ d v l g x op ops, G d x v (op :: ops) → VTableM c lo lv K mn E d v l g → completesV c d op →
      d.buffered ≠ some (d.next % c.N))
    (hGw : ∀ d x v op ops, G d x v (op :: ops) → E → WrapSafe c d v op)
    (hGs : ∀ d x v k ops, G d x v (.getVar k :: ops) → inBuf c d k → d.buffered = none)
    (hG' : ∀ d x v op ops d' x' v' o l g l' g', G d x v (op :: ops) → VTableM c lo lv K mn E d v l g → VTableM c lo lv K mn E d' v' l' g' →
      VObs c d l g' op o l' → stepV c d x v op = .ok (d', x', v', o) → G d' x' v' ops)
    (rest : List VOp) (m : Nat) :
    ∀ (ops : List VOp) (d : Data) (x : Idx) (v : Var) (l : VLog) (g : Gh), VTableM c lo lv K mn E d v l g →
      d.next + ops.length ≤ P → ClientV c lo K (ops ++ rest) → (∀ k ∈ Spec.offeredV (ops ++ rest), lv ≤ k) → (∀ r ∈ l.log.all, ∀ k ∈ Spec.offeredV (ops ++ rest), r.1 < k) →
      (E ∨ g.s.length + (varNeed c (pageCount d.wbuf) (ops ++ rest) + m) ≤ c.numVar * c.vcap) → G d x v (ops ++ rest) →
      ∃ d' v' g', runOpsV c d x v ops = .ok (d', x, v') ∧ v.next ≤ v'.next ∧ (∃ t, g'.es = g.es ++ t) ∧
        VTableM c lo lv K mn E d' v' (Spec.vlogAfter c.maxRec l (historyV c d x v ops)) g' ∧ d'.next ≤ d.next + ops.length ∧
        ClientV c lo K rest ∧
        (∀ r ∈ (Spec.vlogAfter c.maxRec l (historyV c d x v ops)).log.all, ∀ k ∈ Spec.offeredV rest, r.1 < k) ∧
        (E ∨ g'.s.length + (varNeed c (pageCount d'.wbuf) rest + m) ≤ c.numVar * c.vcap) ∧ G d' x v' rest := by
  intro ops d x v l g T hP C hlv hgt hroom hg
  obtain ⟨d', v', g', h1, h2, h3, h4, h5, h6, h7, h8, h9, -⟩ := runOpsV_with hok hs hv hB h128 hG hGw hGs hG' (J := fun _ _ => True)
    (fun _ _ _ _ _ _ _ _ _ _ _ _ _ _ _ _ _ _ => trivial) rest m ops d x v l g T hP C hlv hgt hroom hg trivial
  exact ⟨d', v', g', h1, h2, h3, h4, h5, h6, h7, h8, h9⟩

end

end EDB
