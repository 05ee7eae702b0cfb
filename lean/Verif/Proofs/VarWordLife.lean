import Verif.Proofs.VarWord
import Verif.Proofs.VarReach

/-! # Histories whose position stays below 2^32 -/

namespace EDB

open Spec (VOp VOut VLog Log)

/-- Is a piece of variable data within `L` bytes? -/
def SmallData (L : Nat) : VOp → Prop
  | .put _ _ (some b) => b.length ≤ L
  | _ => True

section
variable {c : Cfg} {lo lv K mn : Nat} {E : Mode} {d : Data} {v : Var} {l : VLog} {g : Gh}

/-- Setting up and reading a stream in a table: nothing wraps. -/
theorem stream_small (hv : c.VFile) (hc : CmpOk c.cmpKey K) (I : VInv c E lv K g v) (hes : EntsOk c g) (hs : VSync v) {key i L : Nat}
    (hL : ∀ e ∈ g.es, e.bs.length ≤ L) (hF : c.numVar * c.pageSize + c.vhdr + L * (1 + c.vhdr) < 2 ^ 32)
    (hloc : LocFits c g v key (slotLoc c d.rbuf i)) (x : Idx) (out : Option (List Byte)) :
    ((do
      let __x ← setupStream32 c d v.word key i
      Res.ok (d, __x.1, getCode __x.2.1, out, __x.2.2)) >>= fun __x => do
        let __y ← readAll32 c __x.2.1 __x.2.2.2.2
        Res.ok (__x.1, x, __y.1, VOut.gotVar __x.2.2.1 __x.2.2.2.1 __y.2)) =
    wordStep ((do
      let __x ← setupStream c d v key i
      Res.ok (d, __x.1, getCode __x.2.1, out, __x.2.2)) >>= fun __x => do
        let __y ← readAll c __x.2.1 __x.2.2.2.2
        Res.ok (__x.1, x, __y.1, VOut.gotVar __x.2.2.1 __x.2.2.2.1 __y.2)) := by
  have hps := hv.ps
  have h0 : 0 < c.numVar * c.pageSize := Nat.mul_pos hv.nv (by unfold Cfg.vhdr at hps; omega)
  have hsl : slotLoc c d.rbuf i = noVar ∨ slotLoc c d.rbuf i + 4 < 2 ^ 32 := by
    rcases hloc with ⟨h, -⟩ | ⟨e, -, -, h, -⟩
    · exact Or.inl h
    · right
      have := Nat.mod_lt (vaddr c e.a) h0
      rw [h]
      unfold Cfg.vhdr at hF
      omega
  rw [setupStream_small (by omega) h0 d key i hsl]
  obtain ⟨v1, s, st, e1, e2, e3, -, e5⟩ := setupPart (d := d) (i := i) (key := key) hv hc I hes hs hloc
  rw [e1]
  simp only [wordSetup, Res.ok_bind]
  have hread : readAll32 c v1.word st = wordAll (readAll c v1 st) := by
    cases st with
    | none => rfl
    | some s1 =>
      refine readAll_small (by unfold Cfg.vhdr at hps; omega) v1 s1 ?_
      have hoff := setupStream_lt h0 e1
      rcases e5 with ⟨-, h, -⟩ | ⟨e, f1, -, ⟨-, -, h⟩ | ⟨-, -, -, s2, f2, f3, f4, -⟩⟩
      · cases h
      · cases h
      · cases f2
        have := Nat.mul_le_mul_right (1 + c.vhdr) (hL e f1)
        rw [f3, f4, Nat.sub_zero]
        omega
  rw [hread]
  cases readAll c v1 st with
  | ub => rfl
  | fuel => rfl
  | ok t => rfl

/-- `embedDBGetVar` and reading the stream. -/
theorem lookup_small (hok : c.Ok K) (hv : c.VFile) {P : Nat} (hB : Bounds c lo K P) (T : VTableM c lo lv K mn E d v l g) (hP : d.next ≤ P)
    (h128 : c.maxRec ≤ 128) {key L : Nat} (hk : key < K) (hs : VSync (readFrom c d v key)) (hr : RoomFor c E (v.next + 1))
    (hL : ∀ e ∈ g.es, e.bs.length ≤ L) (hF : c.numVar * c.pageSize + c.vhdr + L * (1 + c.vhdr) < 2 ^ 32) (hA : PageAgree c v.loc) (x : Idx) :
    stepV32 c d x v.word (.getVar key) = wordStep (stepV c d x v (.getVar key)) := by
  have hK := hB.key
  have hcap2 := T.tab.cap.2
  have hcount : pageCount d.wbuf = l.log.buf.length := by rw [← T.tab.sim.buf, recs_length]
  obtain ⟨r, hr1, hr2⟩ := searchNode_ok hok.cmp T.tab.sim.sortedBuf hk
  unfold stepV32 stepV getVar32 getVar
  simp only [hv.vdata, if_true]
  cases r with
  | some i =>
    obtain ⟨i1, i2⟩ := (hr2 i).mp rfl
    have hin : inBuf c d key := ⟨i, i1, i2⟩
    have hsb : searchBuffer c d.wbuf key = .ok ((i : Int), some (slotData c d.wbuf i)) := by
      unfold searchBuffer
      rw [if_neg (by omega), hr1]
      simp only [Res.ok_bind]
      unfold toInt8
      simp only
      rw [Nat.mod_eq_of_lt (by omega), if_pos (by omega)]
    rw [hsb]
    simp only [Res.ok_bind]
    rw [if_pos (by omega), if_neg (by omega), if_pos (by omega), if_neg (by omega), flushVar_word hA]
    obtain ⟨g', z, v1, f1, f2, f3, f4, f5, f6, f7, f8, f9, f10⟩ := T.inv.flush hv hK T.opn (fun _ => hr)
    have hes := T.ents.append f3 f4
    have hs1 : VSync v1 := by
      have := hs
      unfold readFrom at this
      rw [if_pos hin, f1] at this
      exact this
    rw [f1]
    simp only [Int.toNat_natCast]
    refine stream_small (d := { d with rbuf := d.wbuf }) hv hok.cmp f2 hes hs1 (by rw [f4]; exact hL) hF ?_ x _
    have hlb := T.lbuf i i1
    rcases hlb with ⟨h1, h2⟩ | ⟨e, e1, e2, e3⟩
    · left; rw [i2] at h2; rw [f4]; exact ⟨h1, h2⟩
    · right; rw [i2] at e2; rw [← f4] at e1
      exact ⟨e, e1, e2, e3, by rw [f9]; exact (hes.ok e e1).fin_le⟩
  | none =>
    have hnin : ¬ inBuf c d key := by
      rintro ⟨i, h1, h2⟩
      exact absurd ((hr2 i).mpr ⟨h1, h2⟩) (by simp)
    have hsb : searchBuffer c d.wbuf key = .ok (-1, none) := by
      unfold searchBuffer
      split_ifs
      · rfl
      · rw [hr1]; rfl
    have hs1 : VSync v := by
      unfold readFrom at hs
      rw [if_neg hnin] at hs
      exact hs
    rw [hsb]
    simp only [Res.ok_bind]
    rw [if_neg (by simp), if_neg (by simp)]
    obtain ⟨d', code, out, h1, h2, h3, h4⟩ := get_ok hok.cmp hok.N0 hB hok.spline hk T.tab.sim hP (by
      intro i hi
      omega)
    rw [h1]
    simp only [Res.ok_bind]
    have T1 := T.congr h2 h3
    rcases h4 with ⟨a, a1, a2, a3⟩ | ⟨a1, a2, a3⟩
    · subst a2 a3
      rw [if_pos rfl, if_pos rfl]
      have hno : ∀ r ∈ l.log.buf, r.1 ≠ key := by
        intro r hr he
        rw [← T.tab.sim.buf, mem_recs] at hr
        obtain ⟨j, j1, j2⟩ := hr
        exact hnin ⟨j, j1, by rw [← he, j2]⟩
      obtain ⟨q, i, q1, q2, q3, q4, q5, q6⟩ := get_page hok.cmp hok.N0 hB hok.spline hk T.tab.sim hP hno h1
      rw [q4]
      simp only [Res.ok_bind]
      obtain ⟨w1, w2⟩ := T1.locs q (by rw [h2.min]; exact q1) (by rw [h2.next]; exact q2) d'.rbuf q3
      by_cases h4 : toInt8 i < 0
      · simp only [if_pos h4]; rfl
      · simp only [if_neg h4]
        refine stream_small (d := d') hv hok.cmp T.inv T.ents hs1 hL hF ?_ x _
        rcases w1 i q5 with ⟨h1, h2⟩ | ⟨e, e1, e2, e3⟩
        · left; rw [q6] at h2; exact ⟨h1, h2⟩
        · right; rw [q6] at e2
          exact ⟨e, e1, e2, e3, w2 i q5 e e1 (by rw [q6]; exact e2)⟩
    · subst a2 a3
      rw [if_neg (by decide), if_neg (by decide)]
      rfl

/-! ### The position never goes back -/

theorem setupStream_loc {v' : Var} {key i : Nat} {s : Int} {st : Option Stream} (h : setupStream c d v key i = .ok (v', s, st)) :
    v'.loc = v.loc := by
  unfold setupStream at h
  simp only at h
  split_ifs at h <;> simp only [Res.ok.injEq, Prod.mk.injEq] at h
  · rw [h.1]
  · rw [h.1]
  · rw [← h.1, readVar_loc]
  · rw [← h.1, readVar_loc]
  · rw [← h.1, readVar_loc]

theorem streamLoop_loc (c : Cfg) (len : Nat) : ∀ (f : Nat) (v : Var) (st : Stream) (pg : Nat) (acc : List Byte) (v' : Var) (st' : Stream)
    (bs : List Byte), streamLoop c len f v st pg acc = .ok (v', st', bs) → v'.loc = v.loc := by
  intro f
  induction f with
  | zero => intro v st pg acc v' st' bs h; cases h
  | succ f ih =>
    intro v st pg acc v' st' bs h
    unfold streamLoop at h
    simp only at h
    split_ifs at h
    · rw [ih _ _ _ _ _ _ _ h, readVar_loc]
    · simp only [Res.ok.injEq, Prod.mk.injEq] at h
      rw [← h.1, readVar_loc]
    · exact ih _ _ _ _ _ _ _ h
    · simp only [Res.ok.injEq, Prod.mk.injEq] at h
      rw [h.1]

theorem readAll_loc {v' : Var} {st : Option Stream} {bs : Option (List Byte)} (h : readAll c v st = .ok (v', bs)) : v'.loc = v.loc := by
  cases st with
  | none =>
    simp only [readAll, Res.ok.injEq, Prod.mk.injEq] at h
    rw [h.1]
  | some st =>
    unfold readAll at h
    obtain ⟨⟨v1, s1, b1⟩, h1, h2⟩ := Res.bind_eq_ok h
    simp only [Res.ok.injEq, Prod.mk.injEq] at h2
    rw [← h2.1]
    unfold streamRead at h1
    simp only at h1
    split_ifs at h1
    · rw [streamLoop_loc _ _ _ _ _ _ _ _ _ _ h1, readVar_loc]
    · simp only [Res.ok.injEq, Prod.mk.injEq] at h1
      rw [← h1.1, readVar_loc]

theorem getVar_loc {d' : Data} {v' : Var} {key : Nat} {r : Int} {o : Option (List Byte)} {st : Option Stream}
    (h : getVar c d v key = .ok (d', v', r, o, st)) : v.loc ≤ v'.loc := by
  unfold getVar at h
  split_ifs at h
  · obtain ⟨⟨r1, o1⟩, -, h2⟩ := Res.bind_eq_ok h
    simp only at h2
    split_ifs at h2
    · obtain ⟨⟨v2, s2, t2⟩, h3, h4⟩ := Res.bind_eq_ok h2
      simp only [Res.ok.injEq, Prod.mk.injEq] at h4
      rw [← h4.2.1, setupStream_loc h3]
      exact flushVar_loc v
    · obtain ⟨⟨d2, r2, o2⟩, -, h4⟩ := Res.bind_eq_ok h2
      simp only at h4
      split_ifs at h4
      · obtain ⟨i, -, h6⟩ := Res.bind_eq_ok h4
        cases i with
        | none => cases h6
        | some i =>
          simp only at h6
          split_ifs at h6
          obtain ⟨⟨v3, s3, t3⟩, h7, h8⟩ := Res.bind_eq_ok h6
          simp only [Res.ok.injEq, Prod.mk.injEq] at h8
          rw [← h8.2.1, setupStream_loc h7]
      · simp only [Res.ok.injEq, Prod.mk.injEq] at h4
        rw [h4.2.1]
  · simp only [Res.ok.injEq, Prod.mk.injEq] at h
    rw [h.2.1]

theorem stepV_loc_le {d' : Data} {x x' : Idx} {v' : Var} {op : VOp} {o : VOut} (h : stepV c d x v op = .ok (d', x', v', o)) : v.loc ≤ v'.loc := by
  cases op with
  | getVar k =>
    obtain ⟨⟨d1, v1, r1, o1, st⟩, h1, h2⟩ := Res.bind_eq_ok h
    obtain ⟨⟨v2, bs⟩, h3, h4⟩ := Res.bind_eq_ok h2
    simp only [Res.ok.injEq, Prod.mk.injEq] at h4
    rw [← h4.2.2.1, readAll_loc h3]
    exact getVar_loc h1
  | put k a b => exact stepV_loc (op := .put k a b) trivial h
  | flush => exact stepV_loc (op := .flush) trivial h
  | get k => exact stepV_loc (op := .get k) trivial h

theorem runOpsV_loc_le {ops : List VOp} : ∀ {d d' : Data} {x x' : Idx} {v v' : Var}, runOpsV c d x v ops = .ok (d', x', v') → v.loc ≤ v'.loc := by
  induction ops with
  | nil =>
    intro d d' x x' v v' h
    rw [runOpsV] at h
    simp only [Res.ok.injEq, Prod.mk.injEq] at h
    rw [h.2.2]
  | cons op ops ih =>
    intro d d' x x' v v' h
    rw [runOpsV] at h
    obtain ⟨⟨d1, x1, v1, o⟩, h1, h2⟩ := Res.bind_eq_ok h
    exact le_trans (stepV_loc_le h1) (ih h2)

/-- While the position is below 2^32 a table is in the same state with 32-bit variables, lookups included. -/
theorem runOpsV_small (hok : c.Ok K) (hs : mn = 0 ∨ c.maxErr ≤ 1) (hv : c.VFile) {P : Nat} (hB : Bounds c lo K P) (h128 : c.maxRec ≤ 128)
    {L : Nat} (hF : c.numVar * c.pageSize + c.vhdr + L * (1 + c.vhdr) < 2 ^ 32)
    {G : Data → Idx → Var → List VOp → Prop}
    (hG : ∀ d v l g x op ops, G d x v (op :: ops) → VTableM c lo lv K mn E d v l g → completesV c d op →
      d.buffered ≠ some (d.next % c.N))
    (hGw : ∀ d x v op ops, G d x v (op :: ops) → E → WrapSafe c d v op)
    (hGs : ∀ d x v k ops, G d x v (.getVar k :: ops) → inBuf c d k → d.buffered = none)
    (hGi : ∀ d x v ops, G d x v (.flush :: ops) → IdxRoom c x)
    (hG' : ∀ d x v op ops d' x' v' o l g l' g', G d x v (op :: ops) → VTableM c lo lv K mn E d v l g → VTableM c lo lv K mn E d' v' l' g' →
      VObs c d l g' op o l' → stepV c d x v op = .ok (d', x', v', o) → G d' x' v' ops) (m : Nat) :
    ∀ (ops : List VOp) (d d' : Data) (x x' : Idx) (v v' : Var) (l : VLog) (g : Gh), VTableM c lo lv K mn E d v l g →
      d.next + ops.length ≤ P → ClientV c lo K ops → (∀ k ∈ Spec.offeredV ops, lv ≤ k) → (∀ r ∈ l.log.all, ∀ k ∈ Spec.offeredV ops, r.1 < k) →
      (E ∨ g.s.length + (varNeed c (pageCount d.wbuf) ops + m) ≤ c.numVar * c.vcap) → G d x v ops →
      (∀ op ∈ ops, SmallData L op) → (∀ k b, l.var k = some b → b.length ≤ L) →
      runOpsV c d x v ops = .ok (d', x', v') → v'.loc < 2 ^ 32 →
      runOpsV32 c d x v ops = .ok (d', x', v') ∧ historyV32 c d x v ops = historyV c d x v ops := by
  have hw : ∀ v : Var, v.loc < 2 ^ 32 → v.word = v := by
    intro v h
    unfold Var.word w32
    rw [Nat.mod_eq_of_lt h]
  have hps := hv.ps
  have h0 : 0 < c.numVar * c.pageSize := Nat.mul_pos hv.nv (by unfold Cfg.vhdr at hps; omega)
  have hF' : c.numVar * c.pageSize < 2 ^ 32 := by omega
  intro ops
  induction ops with
  | nil => intro d d' x x' v v' l g _ _ _ _ _ _ _ _ _ h _; exact ⟨h, rfl⟩
  | cons op ops ih =>
    intro d d' x x' v v' l g T hP C hlv hgt hroom hg hd hl h hlt
    rw [List.length_cons] at hP
    have hall := runOpsV_loc_le h
    rw [runOpsV] at h
    obtain ⟨⟨d1, x1, v1, o⟩, h1, h2⟩ := Res.bind_eq_ok h
    have l1 := runOpsV_loc_le h2
    obtain ⟨d2, x2, v2, l2, g2, o2, e, hobs, hn, -, -, -, hnext⟩ := T.stepX hok hs hv hB h128 x (by omega) C hlv hgt
      (hG _ _ _ _ _ _ _ hg T) (hGw _ _ _ _ _ hg) (fun h => by subst h; exact hGi _ _ _ _ hg) hroom
    obtain ⟨T', n1, n2, n3⟩ := hnext (fun k hk => by subst hk; exact hGs _ _ _ _ _ hg)
    rw [e] at h1
    simp only [Res.ok.injEq, Prod.mk.injEq] at h1
    obtain ⟨rfl, rfl, rfl, rfl⟩ := h1
    have hstep : stepV32 c d x v.word op = wordStep (stepV c d x v op) := by
      by_cases hns : NoStream op
      · exact stepV_word hF' h0 d x op (Or.inl hns) (fun n h => agree_below c (by
          have := h _ _ _ _ e
          omega))
      · cases op with
        | put k a b => exact absurd trivial hns
        | flush => exact absurd trivial hns
        | get k => exact absurd trivial hns
        | getVar k =>
          have hvn : varNeed c (pageCount d.wbuf) (VOp.getVar k :: ops) = c.vcap + varNeed c (pageCount d.wbuf) ops := by
            unfold varNeed; simp only [opBytes, Spec.offeredV]; omega
          have hr1 := room_next hv T hroom (by omega)
          have hsy : VSync (readFrom c d v k) := by
            by_cases hE : E
            · exact hGw _ _ _ _ _ hg hE
            · exact T.sync hv hB.key hE k hr1
          exact lookup_small hok hv hB T (by omega) h128 (C.getVar k (by simp)) hsy hr1
            (fun e he => hl _ _ (T.vars e he)) hF (agree_below c (by omega)).page x
    have hl' : ∀ k b, l2.var k = some b → b.length ≤ L := by
      intro k b hb
      cases op with
      | put k' a' b' =>
        rcases hobs with ⟨-, rfl⟩ | ⟨-, rfl, -⟩
        · simp only [VLog.put] at hb
          split_ifs at hb
          · subst hb
            exact hd (.put k' a' (some b)) List.mem_cons_self
          · exact hl k b hb
        · exact hl k b hb
      | flush =>
        obtain ⟨-, rfl⟩ := hobs
        exact hl k b hb
      | get k' =>
        obtain ⟨rfl, -⟩ := hobs
        exact hl k b hb
      | getVar k' =>
        obtain ⟨rfl, -⟩ := hobs
        exact hl k b hb
    obtain ⟨i1, i2⟩ := ih d2 d' x2 x' v2 v' l2 g2 T' (by omega) C.tail (fun k hk => hlv k (offeredV_tail hk)) n2 n3
      (hG' _ _ _ _ _ _ _ _ _ _ _ _ _ hg T T' hobs e) (fun o ho => hd o (List.mem_cons_of_mem _ ho)) hl' h2 hlt
    rw [hw v (by omega), e] at hstep
    simp only [wordStep] at hstep
    rw [hw v2 (by omega)] at hstep
    rw [runOpsV32, historyV32, historyV, hstep, e]
    exact ⟨i1, by simp only; rw [i2]⟩

end

end EDB
