import Verif.Proofs.VarHist
import Verif.Proofs.VarChunks

/-! Helper lemmas: states reached from a new table with variable data. -/

namespace EDB

open Spec (Log VLog VOp VOut)

/-- `Q` holds before every operation of the run. -/
def Along (c : Cfg) (Q : Data → Var → VOp → Prop) : Data → Idx → Var → List VOp → Prop
  | _, _, _, [] => True
  | d, x, v, op :: ops => Q d v op ∧ ∀ d' x' v' o, stepV c d x v op = .ok (d', x', v', o) → Along c Q d' x' v' ops

/-- No data page is completed while the storage page it overwrites is the one in the read cache. -/
def CacheFree (c : Cfg) (d : Data) (_ : Var) (op : VOp) : Prop := completesV c d op → d.buffered ≠ some (d.next % c.N)

/-- No variable data is read of a record in the write buffer while the read cache is in use. -/
def CleanRead (c : Cfg) (d : Data) (_ : Var) : VOp → Prop
  | .getVar k => inBuf c d k → d.buffered = none
  | _ => True

/-- Before every flush of the run the index satisfies `R`. -/
def IdxAlong (c : Cfg) (R : Idx → Prop) : Data → Idx → Var → List VOp → Prop
  | _, _, _, [] => True
  | d, x, v, op :: ops => (op = .flush → R x) ∧ ∀ d' x' v' o, stepV c d x v op = .ok (d', x', v', o) → IdxAlong c R d' x' v' ops

/-- Before every flush there is room for a bitmap in the index page under construction. -/
def IdxSafe (c : Cfg) : Data → Idx → Var → List VOp → Prop := IdxAlong c (IdxRoom c)

theorem idxSafe_plain {c : Cfg} (hi : c.useIndex = false) : ∀ (ops : List VOp) (d : Data) (x : Idx) (v : Var), IdxSafe c d x v ops := by
  intro ops
  induction ops with
  | nil => intro d x v; exact trivial
  | cons op ops ih => intro d x v; exact ⟨fun _ => idxRoom_plain hi x, fun d' x' v' o _ => ih d' x' v'⟩

/-- Clients that do not flush need no room. -/
theorem idxSafe_puts {c : Cfg} : ∀ (ops : List VOp) (d : Data) (x : Idx) (v : Var), VOp.flush ∉ ops → IdxSafe c d x v ops := by
  intro ops
  induction ops with
  | nil => intro d x v _; exact trivial
  | cons op ops ih =>
    intro d x v h
    exact ⟨fun h0 => absurd (by rw [h0]; simp) h, fun d' x' v' o _ => ih d' x' v' (fun h1 => h (List.mem_cons_of_mem _ h1))⟩

/-- Number of flushes. -/
def flushes : List VOp → Nat
  | [] => 0
  | .flush :: t => flushes t + 1
  | _ :: t => flushes t

/-- Data pages the operations complete at most. -/
def pageNeed (c : Cfg) (buffered : Nat) (ops : List VOp) : Nat :=
  flushes ops + (buffered + (Spec.offeredV ops).length) / c.maxRec

/-- Either the data pages fit into the file, or the run is `CacheFree`. -/
def CacheOk (c : Cfg) (d : Data) (x : Idx) (v : Var) (ops : List VOp) : Prop :=
  d.next + pageNeed c (pageCount d.wbuf) ops ≤ c.N ∨ Along c (CacheFree c) d x v ops

section
variable {c : Cfg} {lo K : Nat} {E : Prop} {d : Data} {v : Var} {l : VLog} {g : Gh}

theorem vbase_fresh (vrb : Page) (hvf : Bool) : vbase c (Var.fresh c vrb hvf) = 0 := by simp [vbase, Var.fresh]

theorem fresh_vtable (hok : c.Ok K) (hv : c.VFile) (hE : E → c.eraseFx = id) (rb vrb : Page) (sm : Nat → Nat × Nat) (hvf : Bool) :
    VTable c lo K E (Data.fresh c rb sm) (Var.fresh c vrb hvf) VLog.empty ⟨0, [], [], []⟩ := by
  have hcap := hv.cap4
  refine ⟨fresh_table hok rb sm, ⟨?_, ⟨le_refl _, Or.inl ⟨(vbase_fresh _ _).symm, Or.inl (vbase_fresh _ _)⟩⟩, ?_, Or.inl ⟨rfl, rfl, rfl⟩, Or.inl rfl, hE, by simp⟩, ?_, ⟨by simp, List.Pairwise.nil⟩, by simp, by simp,
    ?_, ?_, ?_⟩
  · rw [vbase_fresh]
    refine ⟨by simp [Var.fresh], by simp, by simp [Var.fresh]; exact Round.refl _ _, rfl, dvd_zero _, by simp [Var.fresh], Or.inl rfl, ?_, ?_, ?_, ?_, ?_⟩
    · intro j _ h; exact absurd h (Nat.not_lt_zero _)
    · intro o _; simp [Var.fresh]
    · intro ph h; simp [Var.fresh] at h
    · intro ph h; simp [Var.fresh] at h
    · intro ph p h; simp [Var.fresh] at h
  · intro _
    refine ⟨fun j h => absurd h (Nat.not_lt_zero _), ⟨Nat.zero_le _, fun j h => absurd h (Nat.not_lt_zero _)⟩, Or.inl ⟨by simp [Var.fresh], vkey_zero c⟩, by simp, ⟨rfl, fun j h => absurd h (Nat.not_lt_zero _)⟩⟩
  · unfold Open; simp [Var.fresh]; omega
  · intro r h; simp [VLog.empty, Log.live, Log.empty] at h
  · intro n _ h; exact absurd h (Nat.not_lt_zero _)
  · intro i hi
    have : pageCount (Data.fresh c rb sm).wbuf = 0 := by
      have := congrArg List.length (recs_init c)
      rw [recs_length] at this
      exact this
    omega

theorem CacheOk.head (hok : c.Ok K) (T : VTable c lo K E d v l g) {x : Idx} {op : VOp} {ops : List VOp}
    (h : CacheOk c d x v (op :: ops)) (hc : completesV c d op) : d.buffered ≠ some (d.next % c.N) := by
  rcases h with h | h
  · have hcap := hok.cap
    have hlt : d.next + 1 ≤ c.N := by
      cases op with
      | put k a b =>
        simp only [completesV] at hc
        unfold pageNeed at h
        have : 1 ≤ (pageCount d.wbuf + (Spec.offeredV (VOp.put k a b :: ops)).length) / c.maxRec :=
          (Nat.one_le_div_iff hcap).mpr (by omega)
        omega
      | flush =>
        unfold pageNeed at h
        simp only [flushes] at h
        generalize (pageCount d.wbuf + (Spec.offeredV (VOp.flush :: ops)).length) / c.maxRec = y at h
        omega
      | get k => exact absurd hc (by simp [completesV])
      | getVar k => exact absurd hc (by simp [completesV])
    intro hb
    have := (T.tab.sim.cacheN _ hb).2
    rw [Nat.mod_eq_of_lt (by omega)] at this
    omega
  · exact h.1 hc

theorem CacheOk.step (hok : c.Ok K) (T : VTable c lo K E d v l g) {x : Idx} {op : VOp} {ops : List VOp}
    (h : CacheOk c d x v (op :: ops)) {d' : Data} {v' : Var} {l' : VLog} {g' : Gh} {x' : Idx} {o : VOut} (T' : VTable c lo K E d' v' l' g')
    (hobs : VObs c d l g' op o l') (e : stepV c d x v op = .ok (d', x', v', o)) : CacheOk c d' x' v' ops := by
  have hcap := hok.cap
  have hn := T.tab.sim.next
  have hn' := T'.tab.sim.next
  have hcount : pageCount d.wbuf = l.log.buf.length := by rw [← T.tab.sim.buf, recs_length]
  have hcount' : pageCount d'.wbuf = l'.log.buf.length := by rw [← T'.tab.sim.buf, recs_length]
  rcases h with h | h
  · left
    unfold pageNeed at h ⊢
    cases op with
    | put k a b =>
      simp only [flushes, Spec.offeredV, List.length_cons] at h
      rcases hobs with ⟨-, rfl⟩ | ⟨-, rfl, -⟩
      · simp only [VLog.put, Log.put] at hn' hcount'
        split_ifs at hn' hcount' with hf
        · simp only [List.length_append, List.length_singleton] at hn' hcount'
          have : (1 + (Spec.offeredV ops).length) / c.maxRec + 1 ≤ (pageCount d.wbuf + ((Spec.offeredV ops).length + 1)) / c.maxRec := by
            rw [← Nat.add_div_right _ hcap]
            exact Nat.div_le_div_right (by omega)
          rw [hcount']
          omega
        · simp only [List.length_append, List.length_singleton] at hn' hcount'
          rw [hcount', show l.log.buf.length + 1 + (Spec.offeredV ops).length = pageCount d.wbuf + ((Spec.offeredV ops).length + 1) by omega]
          omega
      · have : (pageCount d'.wbuf + (Spec.offeredV ops).length) / c.maxRec ≤ (pageCount d.wbuf + ((Spec.offeredV ops).length + 1)) / c.maxRec :=
          Nat.div_le_div_right (by omega)
        omega
    | flush =>
      simp only [flushes, Spec.offeredV] at h
      obtain ⟨-, rfl⟩ := hobs
      simp only [Log.flush] at hn' hcount'
      have : (pageCount d'.wbuf + (Spec.offeredV ops).length) / c.maxRec ≤ (pageCount d.wbuf + (Spec.offeredV ops).length) / c.maxRec := by
        apply Nat.div_le_div_right
        split_ifs at hcount'
        · omega
        · simp only [List.length_nil] at hcount'; omega
      split_ifs at hn'
      · omega
      · simp only [List.length_append, List.length_singleton] at hn'; omega
    | get k =>
      obtain ⟨rfl, -⟩ := hobs
      rw [hcount', ← hcount]
      simp only [flushes, Spec.offeredV] at h
      omega
    | getVar k =>
      obtain ⟨rfl, -⟩ := hobs
      rw [hcount', ← hcount]
      simp only [flushes, Spec.offeredV] at h
      omega
  · right
    exact h.2 _ _ _ _ e

/-- The state reached from a new table, with something else that every step keeps. -/
theorem reachX_with (hok : c.Ok K) (hv : c.VFile) (h128 : c.maxRec ≤ 128) (hE : E → c.eraseFx = id) (ops rest : List VOp) {P : Nat}
    (hB : Bounds c lo K P) (hP : ops.length ≤ P)
    (rb vrb : Page) (sm : Nat → Nat × Nat) (hvf : Bool) (x : Idx) (m : Nat) (hC : ClientV c lo K (ops ++ rest))
    (hroom : E ∨ varNeed c 0 (ops ++ rest) + m ≤ c.numVar * c.vcap)
    (hcache : CacheOk c (Data.fresh c rb sm) x (Var.fresh c vrb hvf) (ops ++ rest))
    (hwrap : E → Along c (WrapSafe c) (Data.fresh c rb sm) x (Var.fresh c vrb hvf) (ops ++ rest))
    (hclean : Along c (CleanRead c) (Data.fresh c rb sm) x (Var.fresh c vrb hvf) (ops ++ rest))
    {R : Idx → Prop} (hR : ∀ x, R x → IdxRoom c x) (hidx : IdxAlong c R (Data.fresh c rb sm) x (Var.fresh c vrb hvf) (ops ++ rest))
    {J : Data → Idx → VLog → Prop} (hJ0 : J (Data.fresh c rb sm) x VLog.empty)
    (hJ : ∀ d x v op d' x' v' o l g l' g', (op = .flush → R x) → (∀ k a b, op = .put k a b → a.length = c.dataSize) → J d x l → d.next + 1 ≤ P → VTable c lo K E d v l g → VTable c lo K E d' v' l' g' →
      VObs c d l g' op o l' → stepV c d x v op = .ok (d', x', v', o) → J d' x' l') :
    ∃ d x' v g, runOpsV c (Data.fresh c rb sm) x (Var.fresh c vrb hvf) ops = .ok (d, x', v) ∧
      VTable c lo K E d v (Spec.vlogAfter c.maxRec VLog.empty (historyV c (Data.fresh c rb sm) x (Var.fresh c vrb hvf) ops)) g ∧
      d.next ≤ ops.length ∧ ClientV c lo K rest ∧
      (∀ r ∈ (Spec.vlogAfter c.maxRec VLog.empty (historyV c (Data.fresh c rb sm) x (Var.fresh c vrb hvf) ops)).log.all,
        ∀ k ∈ Spec.offeredV rest, r.1 < k) ∧
      (E ∨ g.s.length + (varNeed c (pageCount d.wbuf) rest + m) ≤ c.numVar * c.vcap) ∧
      CacheOk c d x' v rest ∧ (E → Along c (WrapSafe c) d x' v rest) ∧ Along c (CleanRead c) d x' v rest ∧ IdxAlong c R d x' v rest ∧
      J d x' (Spec.vlogAfter c.maxRec VLog.empty (historyV c (Data.fresh c rb sm) x (Var.fresh c vrb hvf) ops)) := by
  have hpc : pageCount (Data.fresh c rb sm).wbuf = 0 := by
    have := congrArg List.length (recs_init c)
    rw [recs_length] at this
    exact this
  obtain ⟨d, x', v, g, e1, -, -, e4, e5, e6, e7, e8, ⟨e10, e11, e12, e14⟩, e13⟩ := runOpsVX_with hok (Or.inl rfl) hv hB h128 (E := E)
    (G := fun d x v ops => CacheOk c d x v ops ∧ (E → Along c (WrapSafe c) d x v ops) ∧ Along c (CleanRead c) d x v ops ∧ IdxAlong c R d x v ops)
    (fun d v l g x op ops hg T hc => hg.1.head hok T hc)
    (fun d x v op ops hg hE => (hg.2.1 hE).1)
    (fun d x v k ops hg => hg.2.2.1.1)
    (fun d x v ops hg => hR _ (hg.2.2.2.1 rfl))
    (fun d x v op ops d' x' v' o l g l' g' hg T T' hobs e => ⟨hg.1.step hok T T' hobs e, fun hE => (hg.2.1 hE).2 _ _ _ _ e, hg.2.2.1.2 _ _ _ _ e, hg.2.2.2.2 _ _ _ _ e⟩)
    (J := J) (fun d x v op _ d' x' v' o l g l' g' hg hc => hJ d x v op d' x' v' o l g l' g' hg.2.2.2.1
      (fun k a b h => (hc.put k a b (by rw [h]; simp)).2.2.1)) rest m ops _ x _ VLog.empty ⟨0, [], [], []⟩ (fresh_vtable hok hv hE rb vrb sm hvf)
    (by simp [Data.fresh]; exact hP) hC hC.low (by simp [VLog.empty, Log.all, Log.empty])
    (by rw [hpc]; simpa using hroom) ⟨hcache, hwrap, hclean, hidx⟩ hJ0
  refine ⟨d, x', v, g, e1, e4, ?_, e6, e7, e8, e10, e11, e12, e14, e13⟩
  simpa [Data.fresh] using e5

/-- The same without an index file. -/
theorem reach_with (hok : c.Ok K) (hv : c.VOk) (h128 : c.maxRec ≤ 128) (hE : E → c.eraseFx = id) (ops rest : List VOp) {P : Nat}
    (hB : Bounds c lo K P) (hP : ops.length ≤ P)
    (rb vrb : Page) (sm : Nat → Nat × Nat) (hvf : Bool) (x : Idx) (m : Nat) (hC : ClientV c lo K (ops ++ rest))
    (hroom : E ∨ varNeed c 0 (ops ++ rest) + m ≤ c.numVar * c.vcap)
    (hcache : CacheOk c (Data.fresh c rb sm) x (Var.fresh c vrb hvf) (ops ++ rest))
    (hwrap : E → Along c (WrapSafe c) (Data.fresh c rb sm) x (Var.fresh c vrb hvf) (ops ++ rest))
    (hclean : Along c (CleanRead c) (Data.fresh c rb sm) x (Var.fresh c vrb hvf) (ops ++ rest))
    {J : Data → VLog → Prop} (hJ0 : J (Data.fresh c rb sm) VLog.empty)
    (hJ : ∀ d x v op d' x' v' o l g l' g', J d l → d.next + 1 ≤ P → VTable c lo K E d v l g → VTable c lo K E d' v' l' g' →
      VObs c d l g' op o l' → stepV c d x v op = .ok (d', x', v', o) → J d' l') :
    ∃ d v g, runOpsV c (Data.fresh c rb sm) x (Var.fresh c vrb hvf) ops = .ok (d, x, v) ∧
      VTable c lo K E d v (Spec.vlogAfter c.maxRec VLog.empty (historyV c (Data.fresh c rb sm) x (Var.fresh c vrb hvf) ops)) g ∧
      d.next ≤ ops.length ∧ ClientV c lo K rest ∧
      (∀ r ∈ (Spec.vlogAfter c.maxRec VLog.empty (historyV c (Data.fresh c rb sm) x (Var.fresh c vrb hvf) ops)).log.all,
        ∀ k ∈ Spec.offeredV rest, r.1 < k) ∧
      (E ∨ g.s.length + (varNeed c (pageCount d.wbuf) rest + m) ≤ c.numVar * c.vcap) ∧
      CacheOk c d x v rest ∧ (E → Along c (WrapSafe c) d x v rest) ∧ Along c (CleanRead c) d x v rest ∧
      J d (Spec.vlogAfter c.maxRec VLog.empty (historyV c (Data.fresh c rb sm) x (Var.fresh c vrb hvf) ops)) := by
  obtain ⟨d, x', v, g, h1, h2, h3, h4, h5, h6, h7, h8, h9, -, h10⟩ := reachX_with hok hv h128 hE ops rest hB hP rb vrb sm hvf x m hC hroom hcache hwrap hclean
    (fun _ h => h) (idxSafe_plain hv.idx _ _ _ _) (J := fun d _ l => J d l) hJ0
    (fun d x v op d' x' v' o l g l' g' _ _ => hJ d x v op d' x' v' o l g l' g')
  have := runOpsV_same hv.idx h1
  subst this
  exact ⟨d, v, g, h1, h2, h3, h4, h5, h6, h7, h8, h9, h10⟩

/-- The state reached from a new table, with an index file or without. -/
theorem reachX_ok (hok : c.Ok K) (hv : c.VFile) (h128 : c.maxRec ≤ 128) (hE : E → c.eraseFx = id) (ops rest : List VOp) {P : Nat}
    (hB : Bounds c lo K P) (hP : ops.length ≤ P)
    (rb vrb : Page) (sm : Nat → Nat × Nat) (hvf : Bool) (x : Idx) (m : Nat) (hC : ClientV c lo K (ops ++ rest))
    (hroom : E ∨ varNeed c 0 (ops ++ rest) + m ≤ c.numVar * c.vcap)
    (hcache : CacheOk c (Data.fresh c rb sm) x (Var.fresh c vrb hvf) (ops ++ rest))
    (hwrap : E → Along c (WrapSafe c) (Data.fresh c rb sm) x (Var.fresh c vrb hvf) (ops ++ rest))
    (hclean : Along c (CleanRead c) (Data.fresh c rb sm) x (Var.fresh c vrb hvf) (ops ++ rest))
    (hidx : IdxSafe c (Data.fresh c rb sm) x (Var.fresh c vrb hvf) (ops ++ rest)) :
    ∃ d x' v g, runOpsV c (Data.fresh c rb sm) x (Var.fresh c vrb hvf) ops = .ok (d, x', v) ∧
      VTable c lo K E d v (Spec.vlogAfter c.maxRec VLog.empty (historyV c (Data.fresh c rb sm) x (Var.fresh c vrb hvf) ops)) g ∧
      d.next ≤ ops.length ∧ ClientV c lo K rest ∧
      (∀ r ∈ (Spec.vlogAfter c.maxRec VLog.empty (historyV c (Data.fresh c rb sm) x (Var.fresh c vrb hvf) ops)).log.all,
        ∀ k ∈ Spec.offeredV rest, r.1 < k) ∧
      (E ∨ g.s.length + (varNeed c (pageCount d.wbuf) rest + m) ≤ c.numVar * c.vcap) ∧
      CacheOk c d x' v rest ∧ (E → Along c (WrapSafe c) d x' v rest) ∧ Along c (CleanRead c) d x' v rest ∧ IdxSafe c d x' v rest := by
  obtain ⟨d, x', v, g, h1, h2, h3, h4, h5, h6, h7, h8, h9, h10, -⟩ := reachX_with hok hv h128 hE ops rest hB hP rb vrb sm hvf x m hC hroom hcache hwrap hclean (fun _ h => h) hidx
    (J := fun _ _ _ => True) trivial (by intros; trivial)
  exact ⟨d, x', v, g, h1, h2, h3, h4, h5, h6, h7, h8, h9, h10⟩

/-- The state reached from a new table. -/
theorem reach_ok (hok : c.Ok K) (hv : c.VOk) (h128 : c.maxRec ≤ 128) (hE : E → c.eraseFx = id) (ops rest : List VOp) {P : Nat}
    (hB : Bounds c lo K P) (hP : ops.length ≤ P)
    (rb vrb : Page) (sm : Nat → Nat × Nat) (hvf : Bool) (x : Idx) (m : Nat) (hC : ClientV c lo K (ops ++ rest))
    (hroom : E ∨ varNeed c 0 (ops ++ rest) + m ≤ c.numVar * c.vcap)
    (hcache : CacheOk c (Data.fresh c rb sm) x (Var.fresh c vrb hvf) (ops ++ rest))
    (hwrap : E → Along c (WrapSafe c) (Data.fresh c rb sm) x (Var.fresh c vrb hvf) (ops ++ rest))
    (hclean : Along c (CleanRead c) (Data.fresh c rb sm) x (Var.fresh c vrb hvf) (ops ++ rest)) :
    ∃ d v g, runOpsV c (Data.fresh c rb sm) x (Var.fresh c vrb hvf) ops = .ok (d, x, v) ∧
      VTable c lo K E d v (Spec.vlogAfter c.maxRec VLog.empty (historyV c (Data.fresh c rb sm) x (Var.fresh c vrb hvf) ops)) g ∧
      d.next ≤ ops.length ∧ ClientV c lo K rest ∧
      (∀ r ∈ (Spec.vlogAfter c.maxRec VLog.empty (historyV c (Data.fresh c rb sm) x (Var.fresh c vrb hvf) ops)).log.all,
        ∀ k ∈ Spec.offeredV rest, r.1 < k) ∧
      (E ∨ g.s.length + (varNeed c (pageCount d.wbuf) rest + m) ≤ c.numVar * c.vcap) ∧
      CacheOk c d x v rest ∧ (E → Along c (WrapSafe c) d x v rest) ∧ Along c (CleanRead c) d x v rest := by
  obtain ⟨d, v, g, h1, h2, h3, h4, h5, h6, h7, h8, h9, -⟩ := reach_with hok hv h128 hE ops rest hB hP rb vrb sm hvf x m hC hroom hcache hwrap hclean
    (J := fun _ _ => True) trivial (fun _ _ _ _ _ _ _ _ _ _ _ _ _ _ _ _ _ _ => trivial)
  exact ⟨d, v, g, h1, h2, h3, h4, h5, h6, h7, h8, h9⟩

theorem chop_flatten : ∀ (ns : List Nat) (bs : List UInt8), (Spec.chop ns bs).flatten = bs.take ns.sum := by
  intro ns
  induction ns with
  | nil => intro bs; simp [Spec.chop]
  | cons n ns ih =>
    intro bs
    simp only [Spec.chop, List.flatten_cons, List.sum_cons]
    rw [ih, List.take_add]

end

end EDB
