import Verif.Proofs.VarReach

/-! Helper lemmas: a client that first inserts and then reads, on a variable data file that wraps around. -/

namespace EDB

open Spec (Log VLog VOp VOut)

/-- The variable data file of a client that has not read variable data yet: the read buffer holds the last page of the
block reclaimed last, and is right unless that page has just been written again. -/
structure VPh (c : Cfg) (v : Var) : Prop where
  sum : c.numVar ≤ v.next + v.avail
  dvd : c.B ∣ v.next + v.avail - c.numVar
  stored : ∀ ph, ph < c.numVar → ph < v.next → ∃ p, v.dev.file ph = some p
  cached : (v.next + v.avail = c.numVar ∧ v.buffered = none) ∨
    (c.numVar < v.next + v.avail ∧ v.avail < c.B ∧ v.buffered = some ((v.next + v.avail - c.numVar - 1) % c.numVar) ∧
      (0 < v.avail → VSync v))

section
variable {c : Cfg} {lo K : Nat} {E : Mode} {d : Data} {v : Var} {l : VLog} {g : Gh}

theorem VPh.congr (h : VPh c v) {v' : Var} (e1 : v'.dev = v.dev) (e2 : v'.rbuf = v.rbuf) (e3 : v'.buffered = v.buffered)
    (e4 : v'.next = v.next) (e5 : v'.avail = v.avail) : VPh c v' := by
  obtain ⟨h1, h2, h3, h4⟩ := h
  refine ⟨by rw [e4, e5]; exact h1, by rw [e4, e5]; exact h2, by rw [e1, e4]; exact h3, ?_⟩
  unfold VSync at h4 ⊢
  rw [e1, e2, e3, e4, e5]
  exact h4

theorem VPh.store (hv : c.VFile) (hs : c.numVar ≤ v.next + v.avail) (hd : c.B ∣ v.next + v.avail - c.numVar)
    (hst : ∀ ph, ph < c.numVar → ph < v.next → ∃ p, v.dev.file ph = some p) (ha : 0 < v.avail)
    (hc : (v.next + v.avail = c.numVar ∧ v.buffered = none) ∨
      (c.numVar < v.next + v.avail ∧ v.avail ≤ c.B ∧ v.buffered = some ((v.next + v.avail - c.numVar - 1) % c.numVar) ∧ VSync v)) :
    VPh c (storeVar c v).1 := by
  have hB := hv.B0
  have htwo := hv.two
  rw [storeVar_eq hv]
  have e : v.next + 1 + (v.avail - 1) = v.next + v.avail := by omega
  refine ⟨by simp only; omega, by simp only; rw [e]; exact hd, ?_, ?_⟩
  · intro ph h1 h2
    simp only at h2 ⊢
    by_cases hp : ph = v.next % c.numVar
    · rw [if_pos hp]; exact ⟨_, rfl⟩
    · rw [if_neg hp]
      by_cases hlt : ph < v.next
      · exact hst ph h1 hlt
      · exfalso
        apply hp
        have : ph = v.next := by omega
        rw [← this, Nat.mod_eq_of_lt h1]
  · simp only
    rcases hc with ⟨h1, h2⟩ | ⟨h1, h2, h3, h4⟩
    · left; exact ⟨by omega, h2⟩
    · right
      refine ⟨by omega, by omega, by rw [e]; exact h3, ?_⟩
      intro h5 ph hph
      simp only at hph ⊢
      rw [if_neg]
      · exact h4 ph hph
      · intro hcon
        rw [h3] at hph
        simp only [Option.some.injEq] at hph
        rw [hcon] at hph
        have := mod_inj_window (N := c.numVar) (l := v.next + v.avail - c.numVar - 1) (m := v.next) (by omega) (by omega) hph
        omega

theorem VPh.write (hv : c.VFile) (hid : c.eraseFx = id) (h : VPh c v) : VPh c (writeVar c v).1 := by
  have hB := hv.B0
  have htwo := hv.two
  have hnv := hv.nv
  obtain ⟨h1, h2, h3, h4⟩ := h
  unfold writeVar
  simp only
  by_cases ha : v.avail = 0
  · rw [if_pos ha]
    have hok : (v.dev.erase c (v.next % c.numVar) (v.next % c.numVar + c.B)).2 = true := by
      simp [Dev.erase, hv.io]
    have hfile : (v.dev.erase c (v.next % c.numVar) (v.next % c.numVar + c.B)).1.file = v.dev.file := by
      simp only [Dev.erase, hv.io, if_true, hid]
      funext i
      split_ifs <;> rfl
    simp only [hok, if_true]
    have e2 : (v.next % c.numVar + c.B - 1) % c.numVar = (v.next + v.avail + c.B - c.numVar - 1) % c.numVar := by
      rw [mod_add_pred hB, show v.next + c.B - 1 = (v.next + v.avail + c.B - c.numVar - 1) + c.numVar by omega, Nat.add_mod_right]
    rw [e2]
    have hlt := Nat.mod_lt (v.next + v.avail + c.B - c.numVar - 1) hnv
    have hle := Nat.mod_le (v.next + v.avail + c.B - c.numVar - 1) c.numVar
    obtain ⟨p, hp⟩ := h3 _ hlt (by omega)
    have hne : v.buffered ≠ some ((v.next + v.avail + c.B - c.numVar - 1) % c.numVar) := by
      rcases h4 with ⟨-, h⟩ | ⟨w1, w2, w3, -⟩
      · rw [h]; simp
      · rw [w3]
        intro hcon
        simp only [Option.some.injEq] at hcon
        have := mod_inj_window (N := c.numVar) (l := v.next + v.avail - c.numVar - 1) (m := v.next + v.avail + c.B - c.numVar - 1)
          (by omega) (by omega) hcon
        omega
    have hrv : readVar { v with dev := (v.dev.erase c (v.next % c.numVar) (v.next % c.numVar + c.B)).1, avail := v.avail + c.B }
        ((v.next + v.avail + c.B - c.numVar - 1) % c.numVar) =
        ({ v with dev := (v.dev.erase c (v.next % c.numVar) (v.next % c.numVar + c.B)).1, avail := v.avail + c.B, rbuf := p,
                  buffered := some ((v.next + v.avail + c.B - c.numVar - 1) % c.numVar) }, true) := by
      unfold readVar
      simp only
      rw [if_neg hne, hfile, hp]
    rw [hrv]
    simp only [if_true]
    have e3 : v.next + (v.avail + c.B) - c.numVar = v.next + v.avail - c.numVar + c.B := by omega
    refine VPh.store hv (by simp only; omega) ?_ ?_ (by simp only; omega) (Or.inr ⟨by simp only; omega, by simp only; omega, ?_, ?_⟩)
    · simp only
      rw [e3]
      exact (Nat.dvd_add_right h2).mpr (dvd_refl _)
    · simp only
      rw [hfile]
      exact h3
    · simp only
      rw [Nat.add_assoc]
    · intro ph hph
      simp only [Option.some.injEq] at hph ⊢
      rw [hfile, ← hph]
      exact hp
  · rw [if_neg ha]
    refine VPh.store hv h1 h2 h3 (by omega) ?_
    rcases h4 with h | ⟨w1, w2, w3, w4⟩
    · exact Or.inl h
    · exact Or.inr ⟨w1, by omega, w3, w4 (by omega)⟩

theorem VPh.roll (hv : c.VFile) (hid : c.eraseFx = id) (h : VPh c v) (key : Nat) : VPh c (rollVar c key v) := by
  unfold rollVar
  split_ifs
  · exact (h.write hv hid).congr rfl rfl rfl rfl rfl
  · exact h

theorem VPh.chunks (hv : c.VFile) (hid : c.eraseFx = id) (key : Nat) : ∀ (f : Nat) (v : Var) (bs : List Byte) (v' : Var), VPh c v →
    putChunks c key f v bs = .ok v' → VPh c v' := by
  intro f
  induction f with
  | zero => intro v bs v' _ h; simp [putChunks] at h
  | succ f ih =>
    intro v bs v' h e
    unfold putChunks at e
    split_ifs at e
    · cases e; exact h
    · refine ih _ _ _ ?_ e
      refine VPh.roll hv hid ?_ key
      exact h.congr rfl rfl rfl rfl rfl

theorem VPh.storeBytes (hv : c.VFile) (hid : c.eraseFx = id) (h : VPh c v) {key : Nat} {bs : List Byte} {v' : Var}
    (e : storeBytes c v key bs = .ok v') : VPh c v' := by
  unfold EDB.storeBytes at e
  simp only at e
  split_ifs at e
  all_goals
    refine VPh.chunks hv hid key _ _ _ _ ?_ e
    refine VPh.roll hv hid ?_ key
    exact h.congr rfl rfl rfl rfl rfl

theorem VPh.pre (hv : c.VFile) (hid : c.eraseFx = id) (h : VPh c v) (d : Data) : VPh c (preVar c d v) := by
  unfold preVar
  split_ifs
  · exact (h.write hv hid).congr rfl rfl rfl rfl rfl
  · exact h

theorem VPh.flush (hv : c.VFile) (hid : c.eraseFx = id) (h : VPh c v) : VPh c (flushVar c v).1 := by
  have hw := h.write hv hid
  unfold flushVar
  split_ifs
  · exact h
  · generalize writeVar c v = r at hw
    obtain ⟨v1, o⟩ := r
    cases o with
    | none => exact hw
    | some _ => exact hw.congr rfl rfl rfl rfl rfl

/-- After the insertions the read cache is right unless the last page written ends a block. -/
theorem VPh.sync (h : VPh c v) (hedge : v.next ≤ c.numVar ∨ ¬ c.B ∣ v.next) (hd : c.B ∣ c.numVar) : VSync v := by
  obtain ⟨h1, h2, h3, h4⟩ := h
  rcases h4 with ⟨-, h⟩ | ⟨w1, w2, w3, w4⟩
  · intro ph hph; rw [h] at hph; cases hph
  · apply w4
    rcases Nat.eq_zero_or_pos v.avail with h0 | h0
    · exfalso
      rw [h0, Nat.add_zero] at w1 h2
      rcases hedge with h | h
      · omega
      · exact h ((Nat.dvd_sub_iff_left (by omega) hd).mp h2)
    · exact h0

/-- An insertion leaves an empty data read cache empty. -/
theorem put_buffered (hok : c.Ok K) (hv : c.VFile) {x x' : Idx} {key : Nat} {data : List Byte} {b : Option (List Byte)} {d' : Data} {v' : Var} {o : VOut}
    (hd : data.length = c.dataSize) (hb : d.buffered = none) (hw : pageCount d.wbuf ≠ 0 ∨ d.next = 0)
    (e : stepV c d x v (.put key data b) = .ok (d', x', v', o)) :
    d'.buffered = none ∧ (pageCount d'.wbuf ≠ 0 ∨ d'.next = 0) := by
  have hput : ∀ loc d1 x1 r w, putX c d x key data loc = .ok (d1, x1, r, w) →
      d1.buffered = none ∧ (pageCount d1.wbuf ≠ 0 ∨ d1.next = 0) := by
    intro loc d1 x1 r w h
    rw [putX_eq hok, orderCheck_noread d key hw] at h
    by_cases hc : (orderCheck c d key).2 = true
    · rw [if_pos hc] at h
      obtain ⟨x2, -, h⟩ := Res.bind_eq_ok h
      simp only [Res.ok.injEq, Prod.mk.injEq] at h
      obtain ⟨rfl, -⟩ := h
      refine ⟨by rw [accepted_buffered]; exact hb, Or.inl ?_⟩
      rw [accepted_count hok _ _ _ _ hd]
      split_ifs <;> omega
    · rw [if_neg hc] at h
      simp only [Res.ok.injEq, Prod.mk.injEq] at h
      obtain ⟨rfl, -⟩ := h
      exact ⟨hb, hw⟩
  simp only [stepV, putVar, hv.vdata, if_true] at e
  cases b with
  | none =>
    simp only at e
    obtain ⟨⟨d1, x1, v1, r1⟩, e1, e2⟩ := Res.bind_eq_ok e
    obtain ⟨⟨d2, x2, r2, w2⟩, e3, e4⟩ := Res.bind_eq_ok e1
    simp only [Res.ok.injEq, Prod.mk.injEq] at e2 e4
    obtain ⟨rfl, -⟩ := e2
    obtain ⟨rfl, -⟩ := e4
    exact hput _ _ _ _ _ e3
  | some bs =>
    simp only at e
    obtain ⟨⟨d1, x1, v1, r1⟩, e1, e2⟩ := Res.bind_eq_ok e
    obtain ⟨⟨d2, x2, r2, w2⟩, e3, e4⟩ := Res.bind_eq_ok e1
    simp only [Res.ok.injEq, Prod.mk.injEq] at e2
    obtain ⟨rfl, -⟩ := e2
    simp only at e4
    by_cases hr : r2 ≠ 0
    · rw [if_pos hr] at e4
      simp only [Res.ok.injEq, Prod.mk.injEq] at e4
      obtain ⟨rfl, -⟩ := e4
      exact hput _ _ _ _ _ e3
    · rw [if_neg hr] at e4
      obtain ⟨v2, -, e6⟩ := Res.bind_eq_ok e4
      simp only [Res.ok.injEq, Prod.mk.injEq] at e6
      obtain ⟨rfl, -⟩ := e6
      exact hput _ _ _ _ _ e3

theorem VPh.put (hv : c.VFile) (hid : c.eraseFx = id) (hrlc : c.rlc = false) (h : VPh c v) {x x' : Idx} {key : Nat} {data : List Byte}
    {b : Option (List Byte)} {d' : Data} {v' : Var} {o : VOut} (e : stepV c d x v (.put key data b) = .ok (d', x', v', o)) : VPh c v' := by
  have hp := h.pre hv hid d
  simp only [stepV, putVar, hv.vdata, if_true, hrlc, Bool.false_eq_true, if_false] at e
  cases b with
  | none =>
    simp only at e
    obtain ⟨⟨d1, x1, v1, r1⟩, e1, e2⟩ := Res.bind_eq_ok e
    obtain ⟨⟨d2, x2, r2, w2⟩, e3, e4⟩ := Res.bind_eq_ok e1
    simp only [Res.ok.injEq, Prod.mk.injEq] at e2 e4
    obtain ⟨rfl, rfl, rfl, rfl⟩ := e2
    obtain ⟨-, -, rfl, -⟩ := e4
    exact hp.congr rfl rfl rfl rfl rfl
  | some bs =>
    simp only at e
    obtain ⟨⟨d1, x1, v1, r1⟩, e1, e2⟩ := Res.bind_eq_ok e
    obtain ⟨⟨d2, x2, r2, w2⟩, e3, e4⟩ := Res.bind_eq_ok e1
    simp only [Res.ok.injEq, Prod.mk.injEq] at e2
    obtain ⟨rfl, rfl, rfl, rfl⟩ := e2
    simp only at e4
    by_cases hr : r2 ≠ 0
    · rw [if_pos hr] at e4
      simp only [Res.ok.injEq, Prod.mk.injEq] at e4
      obtain ⟨-, -, rfl, -⟩ := e4
      exact hp.congr rfl rfl rfl rfl rfl
    · rw [if_neg hr] at e4
      obtain ⟨v2, e5, e6⟩ := Res.bind_eq_ok e4
      simp only [Res.ok.injEq, Prod.mk.injEq] at e6
      obtain ⟨-, -, rfl, -⟩ := e6
      refine VPh.storeBytes hv hid ?_ e5
      exact hp.congr rfl rfl rfl rfl rfl

theorem dropped_le_base (hv : c.VFile) (I : VInv c E lo K g v) : Spec.dropped c.numVar c.B v.next ≤ vbase c v ∧
    (vbase c v = 0 ∨ v.avail < c.B → Spec.dropped c.numVar c.B v.next = vbase c v) := by
  have hB := hv.B0
  have hs := I.sim.sum
  obtain ⟨k, hk⟩ := I.sim.dvd
  unfold Spec.dropped
  by_cases h1 : v.next ≤ c.numVar
  · rw [if_pos h1]
    refine ⟨Nat.zero_le _, fun h => ?_⟩
    rcases h with h | h
    · exact h.symm
    · rcases Nat.eq_zero_or_pos k with h0 | h0
      · rw [hk, h0, Nat.mul_zero]
      · have := Nat.mul_le_mul_left c.B h0
        omega
  · rw [if_neg h1]
    have hup : (v.next - c.numVar + c.B - 1) / c.B ≤ k := by
      apply Nat.le_of_lt_succ
      rw [Nat.div_lt_iff_lt_mul hB, Nat.succ_mul, Nat.mul_comm k]
      omega
    refine ⟨by rw [hk]; exact Nat.mul_le_mul_left _ hup, fun h => ?_⟩
    rcases h with h | h
    · omega
    · have : (v.next - c.numVar + c.B - 1) / c.B = k := by
        apply Nat.div_eq_of_lt_le
        · rw [Nat.mul_comm]; omega
        · rw [Nat.add_mul, Nat.mul_comm]; omega
      rw [this, hk]

/-- The pages given up are those that had to be, and those given up when the table was opened. -/
theorem VInv.vmin_max (hv : c.VFile) (I : VInv c E lo K g v) : g.vmin = max E.lim (Spec.dropped c.numVar c.B v.next) := by
  obtain ⟨h1, h2⟩ := dropped_le_base hv I
  obtain ⟨l1, ⟨l2, l3⟩ | ⟨l2, l3, l4, -⟩⟩ := I.lim
  · rw [h2 l3, ← l2, max_eq_right l1]
  · omega

theorem VInv.vmin_eq {W : Prop} (hv : c.VFile) (I : VInv c W lo K g v) : g.vmin = Spec.dropped c.numVar c.B v.next := by
  rw [I.vmin_max hv]
  exact Nat.zero_max _

theorem history_split : ∀ (ops ops' : List VOp) (d : Data) (x : Idx) (v : Var) {d1 : Data} {x1 : Idx} {v1 : Var},
    runOpsV c d x v ops = .ok (d1, x1, v1) → historyV c d x v (ops ++ ops') = historyV c d x v ops ++ historyV c d1 x1 v1 ops' := by
  intro ops ops'
  induction ops with
  | nil =>
    intro d x v d1 x1 v1 h
    simp only [runOpsV, Res.ok.injEq, Prod.mk.injEq] at h
    obtain ⟨rfl, rfl, rfl⟩ := h
    rfl
  | cons op ops ih =>
    intro d x v d1 x1 v1 h
    simp only [runOpsV] at h
    obtain ⟨⟨d2, x2, v2, o⟩, e1, e2⟩ := Res.bind_eq_ok h
    rw [List.cons_append, historyV, historyV, e1]
    simp only
    rw [ih _ _ _ e2]
    rfl

theorem vlogAfter_append (cap : Nat) : ∀ (h h' : Spec.VHistory) (l : VLog),
    Spec.vlogAfter cap l (h ++ h') = Spec.vlogAfter cap (Spec.vlogAfter cap l h) h' := by
  intro h h'
  induction h with
  | nil => intro l; rfl
  | cons a t ih =>
    intro l
    obtain ⟨op, o⟩ := a
    have hstep : ∀ h'' : Spec.VHistory, Spec.vlogAfter cap l ((op, o) :: h'') =
        Spec.vlogAfter cap (Spec.vlogAfter cap l [(op, o)]) h'' := by
      intro h''
      rw [Spec.vlogAfter.eq_def, Spec.vlogAfter.eq_def cap l [(op, o)]]
      split <;> simp_all [Spec.vlogAfter]
    rw [List.cons_append, hstep, ih, ← hstep]

theorem Along.append {Q : Data → Var → VOp → Prop} : ∀ (ops ops' : List VOp) (d : Data) (x : Idx) (v : Var) {d1 : Data} {x1 : Idx} {v1 : Var},
    runOpsV c d x v ops = .ok (d1, x1, v1) → Along c Q d x v (ops ++ ops') → Along c Q d1 x1 v1 ops' := by
  intro ops ops'
  induction ops with
  | nil =>
    intro d x v d1 x1 v1 h H
    simp only [runOpsV, Res.ok.injEq, Prod.mk.injEq] at h
    obtain ⟨rfl, rfl, rfl⟩ := h
    exact H
  | cons op ops ih =>
    intro d x v d1 x1 v1 h H
    simp only [runOpsV] at h
    obtain ⟨⟨d2, x2, v2, o⟩, e1, e2⟩ := Res.bind_eq_ok h
    exact ih _ _ _ e2 (H.2 _ _ _ _ e1)

/-- Lookups only. -/
def ReadOnly : VOp → Prop
  | .get _ => True
  | .getVar _ => True
  | _ => False

/-- An insertion with variable data. -/
def PutsData : VOp → Prop
  | .put _ _ (some _) => True
  | _ => False

theorem not_inBuf (h : pageCount d.wbuf = 0) (k : Nat) : ¬ inBuf c d k := by
  rintro ⟨i, h1, -⟩
  omega

/-- Lookups when the write buffer is empty and the cache is right. -/
theorem reads_along (hok : c.Ok K) (hv : c.VFile) {P : Nat} (hB : Bounds c lo K P) (h128 : c.maxRec ≤ 128) :
    ∀ (ops : List VOp) (d : Data) (x : Idx) (v : Var) (l : VLog) (g : Gh), VTable c lo K True d v l g → d.next + 1 ≤ P →
      ClientV c lo K ops → (∀ op ∈ ops, ReadOnly op) → pageCount d.wbuf = 0 → VSync v →
      Along c (WrapSafe c) d x v ops ∧ Along c (CacheFree c) d x v ops := by
  intro ops
  induction ops with
  | nil => intro d x v l g _ _ _ _ _ _; exact ⟨trivial, trivial⟩
  | cons op ops ih =>
    intro d x v l g T hP C hR hpc hs
    have hro := hR op (by simp)
    have hcount : pageCount d.wbuf = l.log.buf.length := by rw [← T.tab.sim.buf, recs_length]
    cases op with
    | put k a b => exact absurd hro (fun h => h)
    | flush => exact absurd hro (fun h => h)
    | get k =>
      obtain ⟨d', r, out, e, T', -, q2, -⟩ := T.get hok hB (by omega) x (by omega) (C.get k (by simp))
      have hc' : pageCount d'.wbuf = pageCount d.wbuf := by rw [hcount, ← T'.tab.sim.buf, recs_length]
      have key := ih d' x v l g T' (by omega) C.tail (fun op h => hR op (List.mem_cons_of_mem _ h)) (by omega) hs
      constructor
      · refine ⟨trivial, ?_⟩
        intro d2 x2 v2 o2 e2
        rw [e] at e2
        cases e2
        exact key.1
      · refine ⟨fun h => absurd h (fun h => h), ?_⟩
        intro d2 x2 v2 o2 e2
        rw [e] at e2
        cases e2
        exact key.2
    | getVar k =>
      have hrf : VSync (readFrom c d v k) := by
        unfold readFrom
        rw [if_neg (not_inBuf hpc k)]
        exact hs
      obtain ⟨d', v', g', r, out, bs, e, T', -, -, -, -, q5, -, qs, -⟩ := T.getVar hok hv hB (by omega) x h128
        (C.getVar k (by simp)) hrf (Or.inl trivial)
      have T'' := T' (fun h => absurd h (not_inBuf hpc k))
      have hc' : pageCount d'.wbuf = pageCount d.wbuf := by rw [hcount, ← T''.tab.sim.buf, recs_length]
      have key := ih d' x v' l g' T'' (by omega) C.tail (fun op h => hR op (List.mem_cons_of_mem _ h)) (by omega) qs
      constructor
      · refine ⟨hrf, ?_⟩
        intro d2 x2 v2 o2 e2
        rw [e] at e2
        cases e2
        exact key.1
      · refine ⟨fun h => absurd h (fun h => h), ?_⟩
        intro d2 x2 v2 o2 e2
        rw [e] at e2
        cases e2
        exact key.2

theorem VPh.flushV (hv : c.VFile) (hid : c.eraseFx = id) (h : VPh c v) {x x' : Idx} {d' : Data} {v' : Var} {o : VOut}
    (e : stepV c d x v .flush = .ok (d', x', v', o)) : VPh c v' := by
  simp only [stepV, EDB.flushV] at e
  obtain ⟨⟨d1, x1, v1, r1⟩, e1, e2⟩ := Res.bind_eq_ok e
  obtain ⟨⟨d2, x2, r2, w2⟩, e3, e4⟩ := Res.bind_eq_ok e1
  simp only [Res.ok.injEq, Prod.mk.injEq] at e2
  obtain ⟨-, -, rfl, -⟩ := e2
  simp only at e4
  split_ifs at e4
  · simp only [Res.ok.injEq, Prod.mk.injEq] at e4
    obtain ⟨-, -, rfl, -⟩ := e4
    exact h.flush hv hid
  · simp only [Res.ok.injEq, Prod.mk.injEq] at e4
    obtain ⟨-, -, rfl, -⟩ := e4
    exact h

theorem HasData.used (T : VTable c lo K E d v l g) (hlo : 0 < lo) (h : HasData c g v) : PageUsed c v := by
  obtain ⟨e, e1, e2, -⟩ := h
  obtain ⟨r, r1, r2⟩ := T.known e e1
  have := (T.tab.sim.bound r r1).1
  right
  omega

/-- A client that inserts, flushes and then only looks up: nothing it does depends on a stale cache, unless the last
variable page written ends a block. -/
theorem phase_along (hok : c.Ok K) (hv : c.VFile) (hid : c.eraseFx = id) {P : Nat} (hB : Bounds c lo K P) (h128 : c.maxRec ≤ 128) (hlo : 0 < lo)
    (reads : List VOp) (hR : ∀ op ∈ reads, ReadOnly op) :
    ∀ (puts : List VOp) (d : Data) (x : Idx) (v : Var) (l : VLog) (g : Gh), VTable c lo K True d v l g → d.next + puts.length + 2 ≤ P →
      ClientV c lo K (puts ++ .flush :: reads) → (∀ op ∈ puts, PutsData op) →
      (∀ r ∈ l.log.all, ∀ k ∈ Spec.offeredV (puts ++ .flush :: reads), r.1 < k) →
      VPh c v → d.buffered = none → (pageCount d.wbuf ≠ 0 ∨ d.next = 0) → (0 < pageCount d.wbuf → PageUsed c v) →
      (reads ≠ [] → ∀ d' x' v', runOpsV c d x v (puts ++ [.flush]) = .ok (d', x', v') → v'.next ≤ c.numVar ∨ ¬ c.B ∣ v'.next) →
      IdxSafe c d x v (puts ++ .flush :: reads) → Along c (WrapSafe c) d x v (puts ++ .flush :: reads) ∧ Along c (CacheFree c) d x v (puts ++ .flush :: reads) := by
  intro puts
  induction puts with
  | nil =>
    intro d x v l g T hP C _ hgt hph hb hw hu hedge hI
    simp only [List.nil_append] at C hgt hedge hI ⊢
    obtain ⟨d', x', v', l', g', o, e, hobs, -, -, -, -, hnext⟩ := T.stepX hok (Or.inl rfl) hv hB h128 x (by simp at hP; omega) C C.low hgt
      (fun _ => by rw [hb]; simp) (fun _ => trivial) hI.1 (m := 0) (Or.inl trivial)
    obtain ⟨T', n1, -, -⟩ := hnext (fun k h => by cases h)
    obtain ⟨-, rfl⟩ := hobs
    have hpc : pageCount d'.wbuf = 0 := by
      have : pageCount d'.wbuf = l.log.flush.buf.length := by rw [← T'.tab.sim.buf, recs_length]
      rw [this]
      unfold Log.flush
      split_ifs with h0
      · rw [h0]; rfl
      · rfl
    have hph' := hph.flushV hv hid e
    have key : Along c (WrapSafe c) d' x' v' reads ∧ Along c (CacheFree c) d' x' v' reads := by
      by_cases hr : reads = []
      · rw [hr]; exact ⟨trivial, trivial⟩
      · have hs : VSync v' := hph'.sync (hedge hr d' x' v' (by simp only [runOpsV, e]; rfl)) hv.dvd
        exact reads_along hok hv hB h128 reads d' x' v' _ g' T' (by simp at hP; omega) C.tail hR hpc hs
    constructor
    · refine ⟨trivial, ?_⟩
      intro d2 x2 v2 o2 e2
      rw [e] at e2
      cases e2
      exact key.1
    · refine ⟨fun _ => by rw [hb]; simp, ?_⟩
      intro d2 x2 v2 o2 e2
      rw [e] at e2
      cases e2
      exact key.2
  | cons op puts ih =>
    intro d x v l g T hP C hD hgt hph hb hw hu hedge hI
    have hcap := hok.cap
    rw [List.length_cons] at hP
    have hop := hD op (by simp)
    cases op with
    | flush => exact absurd hop (fun h => h)
    | get k => exact absurd hop (fun h => h)
    | getVar k => exact absurd hop (fun h => h)
    | put k a b =>
      cases b with
      | none => exact absurd hop (fun h => h)
      | some bs =>
        rw [List.cons_append] at C hgt hI
        have hwrap : WrapSafe c d v (.put k a (some bs)) := fun h => hu (by omega)
        have hcf : CacheFree c d v (.put k a (some bs)) := fun _ => by rw [hb]; simp
        obtain ⟨d', x', v', l', g', o, e, hobs, -, -, -, hput, hnext⟩ := T.stepX hok (Or.inl rfl) hv hB h128 x (by omega) C C.low hgt hcf (fun _ => hwrap) hI.1
          (m := 0) (Or.inl trivial)
        obtain ⟨T', n1, n2, -⟩ := hnext (fun k h => by cases h)
        obtain ⟨b1, b2⟩ := put_buffered hok hv (C.put k a (some bs) (by simp)).2.2.1 hb hw e
        have hph' := hph.put hv hid hok.plain e
        have ho : o = .code 0 := by
          rcases hobs with ⟨h, -⟩ | ⟨-, -, h1, ps, pg, h2, -⟩
          · exact h
          · exfalso
            have hcount : pageCount d.wbuf = l.log.buf.length := by rw [← T.tab.sim.buf, recs_length]
            have hn := T.tab.sim.next
            rw [h1] at hcount
            rw [h2, List.length_append, List.length_singleton] at hn
            rcases hw with h | h
            · exact h hcount
            · omega
        have hused : PageUsed c v' := HasData.used T' hlo ((hput k a bs rfl ho).2 trivial)
        have key := ih d' x' v' l' g' T' (by omega) C.tail (fun op h => hD op (List.mem_cons_of_mem _ h)) n2 hph' b1 b2 (fun _ => hused) (by
          intro hr d2 x2 v2 h2
          apply hedge hr d2 x2 v2
          rw [List.cons_append]
          simp only [runOpsV, e, Res.ok_bind]
          exact h2) (hI.2 _ _ _ _ e)
        rw [List.cons_append]
        constructor
        · refine ⟨hwrap, ?_⟩
          intro d2 x2 v2 o2 e2
          rw [e] at e2
          cases e2
          exact key.1
        · refine ⟨hcf, ?_⟩
          intro d2 x2 v2 o2 e2
          rw [e] at e2
          cases e2
          exact key.2

theorem fresh_vph (hv : c.VFile) (vrb : Page) (hvf : Bool) : VPh c (Var.fresh c vrb hvf) := by
  refine ⟨by simp [Var.fresh], by simp [Var.fresh], ?_, Or.inl ⟨by simp [Var.fresh], rfl⟩⟩
  intro ph _ h
  exact absurd h (Nat.not_lt_zero _)

end

end EDB
