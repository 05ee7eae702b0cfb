import Verif.Proofs.RingUse
import Verif.Proofs.RlcFile
import Verif.Proofs.VarLives
import Verif.Model.VarLives

/-!
# The pages of the data file and of the variable data file lie within the page size
-/

namespace EDB

open Spec (VOp VOut VLog)

variable {c : Cfg} {K : Nat}

/-- The buffer and all pages written. -/
def Fits (sz : Nat) (w : Page) (v : Dev) : Prop :=
  Page.within w sz ∧ ∀ ph p, Ev.write ph p ∈ v.log → Page.within p sz

theorem Fits.write {sz : Nat} {w : Page} {v : Dev} (h : Fits sz w v) (ph : Nat) : Fits sz w (v.write c ph w).1 := by
  unfold Dev.write
  split_ifs
  · refine ⟨h.1, fun ph' p hp => ?_⟩
    rcases List.mem_append.mp hp with hp | hp
    · exact h.2 _ _ hp
    · simp only [List.mem_singleton, Ev.write.injEq] at hp
      rw [hp.2]; exact h.1
  · exact h

theorem Fits.erase {sz : Nat} {w : Page} {v : Dev} (h : Fits sz w v) (lo hi : Nat) : Fits sz w (v.erase c lo hi).1 := by
  unfold Dev.erase
  split_ifs
  · refine ⟨h.1, fun ph' p hp => ?_⟩
    rcases List.mem_append.mp hp with hp | hp
    · exact h.2 _ _ hp
    · simp at hp
  · exact h

theorem Fits.buf {sz : Nat} {w w' : Page} {v : Dev} (h : Fits sz w v) (hw : Page.within w' sz) : Fits sz w' v := ⟨hw, h.2⟩

/-! ### Variable data -/

def VFits (c : Cfg) (v : Var) : Prop := Fits c.pageSize v.wbuf v.dev

theorem within_zero (n : Nat) : Page.within (fun _ => 0) n := fun _ _ => rfl

theorem VFits.same {v v' : Var} (h : VFits c v) (hw : v'.wbuf = v.wbuf) (hd : v'.dev = v.dev) : VFits c v' := by
  unfold VFits; rw [hw, hd]; exact h

theorem readVar_keeps (v : Var) (ph : Nat) : (readVar v ph).1.wbuf = v.wbuf ∧ (readVar v ph).1.dev = v.dev := by
  unfold readVar
  split_ifs
  · exact ⟨rfl, rfl⟩
  · split <;> exact ⟨rfl, rfl⟩

theorem VFits.readVar {v : Var} (h : VFits c v) (ph : Nat) : VFits c (readVar v ph).1 :=
  h.same (readVar_keeps v ph).1 (readVar_keeps v ph).2

theorem VFits.storeVar (hp : c.vhdr ≤ c.pageSize) {v : Var} (h : VFits c v) : VFits c (storeVar c v).1 := by
  have h1 : Fits c.pageSize (wr v.wbuf 0 (leBytes 4 v.next)) v.dev :=
    h.buf (within_wr h.1 (by rw [leBytes_length]; unfold Cfg.vhdr at hp; omega))
  have h2 := h1.write (c := c) (v.next % c.numVar)
  unfold EDB.storeVar
  simp only
  split_ifs
  · exact h2
  · exact h2

theorem VFits.writeVar (hp : c.vhdr ≤ c.pageSize) {v : Var} (h : VFits c v) : VFits c (writeVar c v).1 := by
  unfold EDB.writeVar
  simp only
  by_cases ha : v.avail = 0
  · rw [if_pos ha]
    have h2 : VFits c { v with dev := (v.dev.erase c (v.next % c.numVar) (v.next % c.numVar + c.B)).1, avail := v.avail + c.B } :=
      Fits.erase (c := c) h _ _
    have h3 := h2.readVar ((v.next % c.numVar + c.B - 1) % c.numVar)
    split_ifs
    · exact VFits.storeVar hp (v := { (EDB.readVar _ _).1 with minRec := _ }) h3
    · exact h3
    · exact h2
  · rw [if_neg ha]
    exact h.storeVar hp

theorem VFits.flushVar (hp : c.vhdr ≤ c.pageSize) {v : Var} (h : VFits c v) : VFits c (flushVar c v).1 := by
  unfold EDB.flushVar
  split_ifs
  · exact h
  · have h1 := h.writeVar hp
    rcases hw : EDB.writeVar c v with ⟨v', _ | n⟩
    · rw [hw] at h1; exact h1
    · rw [hw] at h1; exact h1.buf (within_zero _)

theorem VFits.rollVar (hp : c.vhdr ≤ c.pageSize) {v : Var} (h : VFits c v) (key : Nat) : VFits c (rollVar c key v) := by
  unfold EDB.rollVar
  split_ifs
  · exact (h.writeVar hp).buf (within_wr (within_zero _) (by rw [leBytes_length]; unfold Cfg.vhdr at hp; omega))
  · exact h

theorem VFits.putChunks (hp : c.vhdr ≤ c.pageSize) (key : Nat) : ∀ (f : Nat) (v v' : Var) (bs : List Byte), VFits c v →
    putChunks c key f v bs = .ok v' → VFits c v' := by
  intro f
  induction f with
  | zero => intro v v' bs h e; simp [EDB.putChunks] at e
  | succ f ih =>
    intro v v' bs h e
    unfold EDB.putChunks at e
    split_ifs at e
    · cases e; exact h
    · refine ih _ _ _ ?_ e
      refine VFits.rollVar hp ?_ key
      refine h.buf (within_wr h.1 ?_)
      have : v.loc % c.pageSize ≤ c.pageSize := (Nat.mod_lt _ (by unfold Cfg.vhdr at hp; omega)).le
      rw [List.length_take]
      omega

theorem VFits.preVar (hp : c.vhdr ≤ c.pageSize) {v : Var} (h : VFits c v) (d : Data) : VFits c (preVar c d v) := by
  unfold EDB.preVar
  split_ifs
  · exact (h.writeVar hp).buf (within_zero _)
  · exact h

theorem VFits.storeBytes (hp : c.vhdr ≤ c.pageSize) {v v' : Var} (h : VFits c v) {key : Nat} {bs : List Byte}
    (e : storeBytes c v key bs = .ok v') : VFits c v' := by
  unfold EDB.storeBytes at e
  have h1 : VFits c (if v.minRec = 2 ^ 64 - 1 then { v with minRec := setLow c.keySize v.minRec key } else v) := by
    split_ifs <;> exact h
  simp only at e
  generalize (if v.minRec = 2 ^ 64 - 1 then { v with minRec := setLow c.keySize v.minRec key } else v) = u at e h1
  by_cases h2 : u.loc % c.pageSize + 4 > c.pageSize
  · rw [if_pos h2] at e; cases e
  · rw [if_neg h2] at e
    refine VFits.putChunks hp key _ _ _ _ ?_ e
    refine VFits.rollVar hp ?_ key
    refine h1.buf (within_wr (within_wr h1.1 ?_) ?_)
    · rw [leBytes_length]; unfold Cfg.vhdr at hp; omega
    · rw [leBytes_length]; omega

theorem VFits.putVar (hp : c.vhdr ≤ c.pageSize) {d d' : Data} {x x' : Idx} {v v' : Var} {key : Nat} {data : List Byte}
    {vd : Option (List Byte)} {r : Int} (h : VFits c v) (e : putVar c d x v key data vd = .ok (d', x', v', r)) :
    VFits c v' := by
  by_cases hu : c.useVdata = true
  · have h1 := h.preVar hp d
    unfold EDB.putVar at e
    rw [if_pos hu] at e
    cases vd with
    | none =>
      simp only at e
      obtain ⟨⟨d1, x1, r1, w1⟩, -, e⟩ := Res.bind_eq_ok e
      cases e
      exact h1
    | some bs =>
      simp only at e
      obtain ⟨⟨d1, x1, r1, w1⟩, -, e⟩ := Res.bind_eq_ok e
      simp only at e
      split_ifs at e
      · cases e; exact h1
      · obtain ⟨v1, h2, e⟩ := Res.bind_eq_ok e
        cases e
        have h3 : VFits c v1 := VFits.storeBytes hp (v := { EDB.preVar c d v with hasVar := true }) h1 h2
        exact h3.flushVar hp
      · obtain ⟨v1, h2, e⟩ := Res.bind_eq_ok e
        cases e
        exact VFits.storeBytes hp (v := { EDB.preVar c d v with hasVar := true }) h1 h2
  · unfold EDB.putVar at e
    rw [if_neg hu] at e; cases e; exact h

theorem VFits.setupStream {d : Data} {v v' : Var} {key i : Nat} {r : Int} {st : Option Stream} (h : VFits c v)
    (e : setupStream c d v key i = .ok (v', r, st)) : VFits c v' := by
  unfold EDB.setupStream at e
  simp only at e
  have h1 := h.readVar (slotLoc c d.rbuf i / c.pageSize % c.numVar)
  by_cases a : slotLoc c d.rbuf i = noVar
  · rw [if_pos a] at e; cases e; exact h
  · rw [if_neg a] at e
    by_cases b : c.cmpKey key (v.minRec % 256 ^ c.keySize) < 0
    · rw [if_pos b] at e; cases e; exact h
    · rw [if_neg b] at e
      generalize EDB.readVar v (slotLoc c d.rbuf i / c.pageSize % c.numVar) = q at e h1
      by_cases g : q.2 = true
      · rw [if_pos g] at e
        by_cases g2 : slotLoc c d.rbuf i % c.pageSize + 4 > c.pageSize
        · rw [if_pos g2] at e; cases e
        · rw [if_neg g2] at e; cases e; exact h1
      · rw [if_neg g] at e; cases e; exact h1

theorem VFits.getVar (hp : c.vhdr ≤ c.pageSize) {d d' : Data} {v v' : Var} {key : Nat} {r : Int} {out : Option (List Byte)}
    {st : Option Stream} (h : VFits c v) (e : getVar c d v key = .ok (d', v', r, out, st)) : VFits c v' := by
  unfold EDB.getVar at e
  by_cases hu : c.useVdata = true
  · rw [if_pos hu] at e
    obtain ⟨⟨r1, o1⟩, -, e⟩ := Res.bind_eq_ok e
    simp only at e
    split_ifs at e
    · obtain ⟨⟨v1, s1, t1⟩, h2, e⟩ := Res.bind_eq_ok e
      cases e
      exact VFits.setupStream (h.flushVar hp) h2
    · obtain ⟨⟨d1, r2, o2⟩, h1, e⟩ := Res.bind_eq_ok e
      simp only at e
      split_ifs at e
      · obtain ⟨o3, -, e⟩ := Res.bind_eq_ok e
        cases o3 with
        | none => cases e
        | some i =>
          simp only at e
          split_ifs at e
          obtain ⟨⟨v1, s1, t1⟩, h2, e⟩ := Res.bind_eq_ok e
          cases e
          exact VFits.setupStream h h2
      · cases e; exact h
  · rw [if_neg hu] at e; cases e; exact h

theorem VFits.streamLoop (len : Nat) : ∀ (f : Nat) (v v' : Var) (st st' : Stream) (pg : Nat) (acc bs : List Byte),
    VFits c v → streamLoop c len f v st pg acc = .ok (v', st', bs) → VFits c v' := by
  intro f
  induction f with
  | zero => intro v v' st st' pg acc bs h e; simp [EDB.streamLoop] at e
  | succ f ih =>
    intro v v' st st' pg acc bs h e
    unfold EDB.streamLoop at e
    simp only at e
    split_ifs at e
    · exact ih _ _ _ _ _ _ _ (h.readVar _) e
    · cases e; exact h.readVar _
    · exact ih _ _ _ _ _ _ _ h e
    · cases e; exact h

theorem VFits.streamRead {v v' : Var} {st st' : Stream} {len : Nat} {bs : List Byte} (h : VFits c v)
    (e : streamRead c v st len = .ok (v', st', bs)) : VFits c v' := by
  unfold EDB.streamRead at e
  simp only at e
  split_ifs at e
  · exact VFits.streamLoop _ _ _ _ _ _ _ _ _ (h.readVar _) e
  · cases e; exact h.readVar _

theorem VFits.call (hp : c.vhdr ≤ c.pageSize) {s t : Trio} (h : VFits c s.v) (e : Call c s t) : VFits c t.v := by
  cases e with
  | put key data loc e => exact h
  | putVar key data vd e => exact VFits.putVar hp h e
  | flush e => exact h
  | flushAll e =>
    unfold flushV at e
    obtain ⟨⟨d1, x1, r1, w1⟩, -, e⟩ := Res.bind_eq_ok e
    simp only at e
    split_ifs at e
    · cases e; exact VFits.flushVar hp h
    · cases e; exact h
  | flushVar => exact VFits.flushVar hp h
  | get key e => exact h
  | getVar key e => exact VFits.getVar hp h e
  | next it e => exact h
  | nextVar it e =>
    unfold EDB.nextVar at e
    by_cases hu : c.useVdata = true
    · rw [if_pos hu] at e
      obtain ⟨⟨d1, x1, i1, o1⟩, -, e⟩ := Res.bind_eq_ok e
      cases o1 with
      | none => cases e; exact h
      | some r =>
        simp only at e
        obtain ⟨⟨v1, s1, t1⟩, h2, e⟩ := Res.bind_eq_ok e
        cases e
        refine VFits.setupStream ?_ h2
        split_ifs
        · exact VFits.flushVar hp h
        · exact h
    · rw [if_neg hu] at e; cases e; exact h
  | read st len e => exact VFits.streamRead h e

theorem VFits.calls (hp : c.vhdr ≤ c.pageSize) {s t : Trio} (h : VFits c s.v) (e : Calls c s t) : VFits c t.v := by
  induction e with
  | none => exact h
  | one _ e ih => exact VFits.call hp ih e

/-! ### Opening -/

theorem probeVar_keeps : ∀ (n i : Nat) (v : Var) (pos : Nat) (more : Bool),
    (probeVar c n i v pos more).v.wbuf = v.wbuf ∧ (probeVar c n i v pos more).v.dev = v.dev := by
  intro n
  induction n with
  | zero => intro i v pos more; exact ⟨rfl, rfl⟩
  | succ n ih =>
    intro i v pos more
    unfold probeVar
    simp only
    split_ifs
    · exact readVar_keeps v _
    · obtain ⟨h1, h2⟩ := ih i (readVar v (pos + 1)).1 (pos + 1) (readVar v (pos + 1)).2
      exact ⟨h1.trans (readVar_keeps v _).1, h2.trans (readVar_keeps v _).2⟩
    · obtain ⟨h1, h2⟩ := ih (i + 1) (readVar v (pos + (c.B - pos % c.B))).1 (pos + (c.B - pos % c.B)) (readVar v (pos + (c.B - pos % c.B))).2
      exact ⟨h1.trans (readVar_keeps v _).1, h2.trans (readVar_keeps v _).2⟩
    · exact ⟨rfl, rfl⟩

theorem followVar_keeps : ∀ (n : Nat) (v : Var) (pos last : Nat) (more : Bool),
    (followVar c n v pos last more).1.wbuf = v.wbuf ∧ (followVar c n v pos last more).1.dev = v.dev := by
  intro n
  induction n with
  | zero => intro v pos last more; exact ⟨rfl, rfl⟩
  | succ n ih =>
    intro v pos last more
    unfold followVar
    split_ifs
    · obtain ⟨h1, h2⟩ := ih (readVar v (pos + 1)).1 (pos + 1) (pageId v.rbuf) (readVar v (pos + 1)).2
      exact ⟨h1.trans (readVar_keeps v _).1, h2.trans (readVar_keeps v _).2⟩
    · exact ⟨rfl, rfl⟩
    · exact ⟨rfl, rfl⟩

theorem readPage_keeps (d : Data) (ph : Nat) : (readPage d ph).1.wbuf = d.wbuf ∧ (readPage d ph).1.dev = d.dev := by
  unfold readPage
  split_ifs
  · exact ⟨rfl, rfl⟩
  · split <;> exact ⟨rfl, rfl⟩

theorem setMinRec_keeps (d : Data) (v : Var) : ((setMinRec c d v).1.wbuf = d.wbuf ∧ (setMinRec c d v).1.dev = d.dev) ∧
    (setMinRec c d v).2.1.wbuf = v.wbuf ∧ (setMinRec c d v).2.1.dev = v.dev := by
  unfold setMinRec
  simp only
  split_ifs
  · exact ⟨⟨rfl, rfl⟩, rfl, rfl⟩
  · exact ⟨readPage_keeps d _, rfl, rfl⟩
  · exact ⟨readPage_keeps d _, rfl, rfl⟩
  · exact ⟨⟨rfl, rfl⟩, rfl, rfl⟩

theorem setVarCounters_keeps (d : Data) (v : Var) (a b : Nat) :
    ((setVarCounters c d v a b).1.wbuf = d.wbuf ∧ (setVarCounters c d v a b).1.dev = d.dev) ∧
    (setVarCounters c d v a b).2.1.wbuf = v.wbuf ∧ (setVarCounters c d v a b).2.1.dev = v.dev := by
  unfold setVarCounters
  simp only
  obtain ⟨h1, h2⟩ := readVar_keeps { v with next := (a + 1) % 2 ^ 32 } b
  obtain ⟨h3, h4, h5⟩ := setMinRec_keeps (c := c) d (readVar { v with next := (a + 1) % 2 ^ 32 } b).1
  split_ifs
  · exact ⟨h3, h4.trans h1, h5.trans h2⟩
  · exact ⟨h3, h4.trans h1, h5.trans h2⟩
  · exact ⟨⟨rfl, rfl⟩, h1, h2⟩

theorem finishVar_keeps (d : Data) (v : Var) (a b : Nat) (more : Bool) :
    ((finishVar c d v a b more).1.wbuf = d.wbuf ∧ (finishVar c d v a b more).1.dev = d.dev) ∧
    (finishVar c d v a b more).2.1.wbuf = v.wbuf ∧ (finishVar c d v a b more).2.1.dev = v.dev := by
  unfold finishVar
  simp only
  split_ifs
  · obtain ⟨h1, h2⟩ := readVar_keeps v ((a + (c.B - a % c.B)) % c.numVar)
    obtain ⟨h3, h4, h5⟩ := setVarCounters_keeps (c := c) d (readVar v ((a + (c.B - a % c.B)) % c.numVar)).1 b ((a + (c.B - a % c.B)) % c.numVar)
    exact ⟨h3, h4.trans h1, h5.trans h2⟩
  · obtain ⟨h1, h2⟩ := readVar_keeps v ((a + (c.B - a % c.B)) % c.numVar)
    obtain ⟨h3, h4, h5⟩ := setVarCounters_keeps (c := c) d (readVar v ((a + (c.B - a % c.B)) % c.numVar)).1 b 0
    exact ⟨h3, h4.trans h1, h5.trans h2⟩
  · exact ⟨⟨rfl, rfl⟩, readVar_keeps v _⟩
  · exact setVarCounters_keeps d v b 0

theorem recoverVar_keeps (d : Data) (v : Var) : ((recoverVar c d v).1.wbuf = d.wbuf ∧ (recoverVar c d v).1.dev = d.dev) ∧
    (recoverVar c d v).2.1.wbuf = v.wbuf ∧ (recoverVar c d v).2.1.dev = v.dev := by
  unfold recoverVar
  simp only
  obtain ⟨h1, h2⟩ := readVar_keeps v 0
  obtain ⟨h3, h4⟩ := probeVar_keeps (c := c) 3 0 (readVar v 0).1 0 (readVar v 0).2
  generalize probeVar c 3 0 (readVar v 0).1 0 (readVar v 0).2 = f at *
  cases f.last with
  | none => exact ⟨⟨rfl, rfl⟩, h3.trans h1, h4.trans h2⟩
  | some last =>
    simp only
    obtain ⟨h5, h6⟩ := followVar_keeps (c := c) c.numVar f.v f.pos last f.more
    generalize followVar c c.numVar f.v f.pos last f.more = g at *
    obtain ⟨v1, pos, last, more⟩ := g
    obtain ⟨h7, h8, h9⟩ := finishVar_keeps (c := c) d v1 pos last more
    exact ⟨h7, ((h8.trans h5).trans h3).trans h1, ((h9.trans h6).trans h4).trans h2⟩

theorem probe_keeps : ∀ (n : Nat) (d : Data) (pos : Nat) (more : Bool),
    (probe c n d pos more).d.wbuf = d.wbuf ∧ (probe c n d pos more).d.dev = d.dev := by
  intro n
  induction n with
  | zero => intro d pos more; exact ⟨rfl, rfl⟩
  | succ n ih =>
    intro d pos more
    unfold probe
    split_ifs
    · exact readPage_keeps d _
    · obtain ⟨h1, h2⟩ := ih (readPage d (pos + c.B)).1 (pos + c.B) (readPage d (pos + c.B)).2
      exact ⟨h1.trans (readPage_keeps d _).1, h2.trans (readPage_keeps d _).2⟩
    · exact ⟨rfl, rfl⟩

theorem follow_keeps : ∀ (n : Nat) (d : Data) (pos last : Nat) (more : Bool),
    (follow c n d pos last more).1.wbuf = d.wbuf ∧ (follow c n d pos last more).1.dev = d.dev := by
  intro n
  induction n with
  | zero => intro d pos last more; exact ⟨rfl, rfl⟩
  | succ n ih =>
    intro d pos last more
    unfold follow
    split_ifs
    · obtain ⟨h1, h2⟩ := ih (readPage d (pos + 1)).1 (pos + 1) (pageId d.rbuf) (readPage d (pos + 1)).2
      exact ⟨h1.trans (readPage_keeps d _).1, h2.trans (readPage_keeps d _).2⟩
    · exact ⟨rfl, rfl⟩
    · exact ⟨rfl, rfl⟩

theorem splineFrom_keeps : ∀ (n : Nat) (d : Data) (pg : Nat), (splineFrom c n d pg).wbuf = d.wbuf ∧ (splineFrom c n d pg).dev = d.dev := by
  intro n
  induction n with
  | zero => intro d pg; exact ⟨rfl, rfl⟩
  | succ n ih =>
    intro d pg
    unfold splineFrom
    simp only
    obtain ⟨h1, h2⟩ := ih { (readPage d (pg % c.N)).1 with spl := (readPage d (pg % c.N)).1.spl.add (pageMinKey c (readPage d (pg % c.N)).1.rbuf) pg }
      ((pg + 1) % 2 ^ 32)
    exact ⟨h1.trans (readPage_keeps d _).1, h2.trans (readPage_keeps d _).2⟩

theorem setCounters_keeps (d : Data) (a b r : Nat) : (setCounters c d a b r).wbuf = d.wbuf ∧ (setCounters c d a b r).dev = d.dev := by
  unfold setCounters
  simp only
  obtain ⟨h1, h2⟩ := readPage_keeps { d with next := (a + 1) % 2 ^ 32 } b
  generalize (readPage { d with next := (a + 1) % 2 ^ 32 } b).1 = d1 at *
  obtain ⟨h3, h4⟩ := readPage_keeps { d1 with min := pageId d1.rbuf, avail := u32 (c.N + pageId d1.rbuf - a - 1 - r) } (u32sub d1.next 1 % c.N)
  split_ifs
  · exact ⟨h3.trans h1, h4.trans h2⟩
  · exact ⟨(splineFrom_keeps _ _ _).1.trans (h3.trans h1), (splineFrom_keeps _ _ _).2.trans (h4.trans h2)⟩

theorem recover_keeps (hr : c.rlc = false) (D : Dev) (rb : Page) (sm : Nat → Nat × Nat) :
    (recover c D rb sm).1.wbuf = initPage c ∧ (recover c D rb sm).1.dev = D := by
  unfold recover
  rw [hr]
  simp only [Bool.false_eq_true, if_false]
  unfold recoverPlain
  simp only
  obtain ⟨h1, h2⟩ := readPage_keeps (Data.opening c D rb sm) 0
  obtain ⟨h3, h4⟩ := probe_keeps (c := c) 2 (readPage (Data.opening c D rb sm) 0).1 0 (readPage (Data.opening c D rb sm) 0).2
  generalize probe c 2 (readPage (Data.opening c D rb sm) 0).1 0 (readPage (Data.opening c D rb sm) 0).2 = f at *
  cases f.last with
  | none => exact ⟨h3.trans h1, h4.trans h2⟩
  | some last =>
    simp only
    obtain ⟨h5, h6⟩ := follow_keeps (c := c) c.N f.d f.pos last f.more
    generalize follow c c.N f.d f.pos last f.more = g at *
    obtain ⟨d1, pos, last, more⟩ := g
    have h7 := (h5.trans h3).trans h1
    have h8 := (h6.trans h4).trans h2
    unfold finishRecover
    simp only
    obtain ⟨h9, h10⟩ := readPage_keeps d1 ((pos + (c.B - pos % c.B)) % c.N)
    split_ifs
    · exact ⟨(setCounters_keeps _ _ _ _).1.trans (h9.trans h7), (setCounters_keeps _ _ _ _).2.trans (h10.trans h8)⟩
    · exact ⟨(setCounters_keeps _ _ _ _).1.trans (h9.trans h7), (setCounters_keeps _ _ _ _).2.trans (h10.trans h8)⟩
    · exact ⟨h9.trans h7, h10.trans h8⟩
    · exact ⟨(setCounters_keeps _ _ _ _).1.trans h7, (setCounters_keeps _ _ _ _).2.trans h8⟩

/-- What opening leaves alone. -/
theorem reopenV_keeps (hr : c.rlc = false) (D V : Dev) (rb vrb : Page) (sm : Nat → Nat × Nat) (hv : Bool) :
    ((reopenV c D V rb sm vrb hv).1.wbuf = initPage c ∧ (reopenV c D V rb sm vrb hv).1.dev = D) ∧
    (reopenV c D V rb sm vrb hv).2.1.wbuf = (fun _ => 0) ∧
      ((reopenV c D V rb sm vrb hv).2.1.dev = V ∨ (reopenV c D V rb sm vrb hv).2.1.dev.log = []) := by
  obtain ⟨h1, h2⟩ := recover_keeps hr D rb sm
  unfold reopenV
  simp only
  split_ifs
  · exact ⟨⟨h1, h2⟩, rfl, Or.inl rfl⟩
  · obtain ⟨⟨h3, h4⟩, h5, h6⟩ := recoverVar_keeps (c := c) (recover c D rb sm).1 (Var.opening c V vrb hv)
    exact ⟨⟨h3.trans h1, h4.trans h2⟩, h5, Or.inl h6⟩
  · exact ⟨⟨h1, h2⟩, rfl, Or.inr rfl⟩

/-! ### Data -/

def DFits (c : Cfg) (d : Data) : Prop := pageCount d.wbuf ≤ c.maxRec ∧ Fits c.pageSize d.wbuf d.dev

theorem DFits.congr {d d' : Data} (h : DFits c d) (hw : d'.wbuf = d.wbuf) (hd : d'.dev = d.dev) : DFits c d' := by
  unfold DFits; rw [hw, hd]; exact h

theorem DFits.init (hok : c.Ok K) {d : Data} (hw : d.wbuf = initPage c) (hl : ∀ ph p, Ev.write ph p ∈ d.dev.log → Page.within p c.pageSize) :
    DFits c d := by
  refine ⟨?_, ?_, hl⟩
  · rw [hw, pageCount_initPage]; exact Nat.zero_le _
  · rw [hw]; exact within_init hok

theorem DFits.out (hok : c.Ok K) {d : Data} (h : DFits c d) :
    Page.within (outPage d) c.pageSize ∧ ∀ ph p, Ev.write ph p ∈ (outDev c d).log → Page.within p c.pageSize := by
  have hsz : 6 ≤ c.pageSize := le_trans (hdr_ge c) (hdr_lt hok.cap)
  have hout : Page.within (outPage d) c.pageSize := within_wr h.2.1 (by rw [leBytes_length]; omega)
  refine ⟨hout, ?_⟩
  intro ph p he
  have he : Ev.write ph p ∈ d.dev.log ++ (if d.avail = 0 then [Ev.erase (d.next % c.N) (d.next % c.N + c.B)] else []) ++
    [Ev.write (d.next % c.N) (outPage d)] := he
  rcases List.mem_append.mp he with he | he
  · rcases List.mem_append.mp he with he | he
    · exact h.2.2 _ _ he
    · split_ifs at he with ha
      · simp at he
      · simp at he
  · simp only [List.mem_singleton, Ev.write.injEq] at he
    rw [he.2]; exact hout

theorem DFits.sealed (hok : c.Ok K) {d : Data} (h : DFits c d) : DFits c (EDB.sealed c d) :=
  DFits.init hok rfl (h.out hok).2

theorem DFits.accepted (hok : c.Ok K) {d : Data} (h : DFits c d) (key : Nat) (data : List Byte) (loc : Nat)
    (hd : data.length = c.dataSize) : DFits c (EDB.accepted c d key data loc) := by
  have hcap := hok.cap
  have hcnt := accepted_count hok d key data loc hd
  have hI : DFits c (if pageCount d.wbuf ≥ c.maxRec then EDB.sealed c d else d) := by
    split_ifs
    · exact h.sealed hok
    · exact h
  refine ⟨?_, ?_, hI.2.2⟩
  · rw [hcnt]
    have := h.1
    split_ifs <;> omega
  · refine within_append hok hI.2.1 key data loc hd ?_
    split_ifs with h
    · rw [sealed_count]; exact hcap
    · omega

theorem getVar_keepsBuf {d : Data} {v : Var} {key : Nat} {r : Data × Var × Int × Option (List Byte) × Option Stream} (e : getVar c d v key = .ok r) :
    r.1.wbuf = d.wbuf := by
  unfold getVar at e
  split_ifs at e
  · obtain ⟨⟨r1, out⟩, -, e2⟩ := Res.bind_eq_ok e
    simp only at e2
    split_ifs at e2
    · obtain ⟨⟨v1, s1, st1⟩, -, e4⟩ := Res.bind_eq_ok e2
      simp only [Res.ok.injEq] at e4
      rw [← e4]
    · obtain ⟨⟨d1, r2, out2⟩, h1, e4⟩ := Res.bind_eq_ok e2
      have := (get_same h1).wbuf
      simp only at e4
      split_ifs at e4
      · obtain ⟨i, -, e6⟩ := Res.bind_eq_ok e4
        cases i with
        | none => simp at e6
        | some i =>
          simp only at e6
          split_ifs at e6
          obtain ⟨⟨v1, s1, st1⟩, -, e8⟩ := Res.bind_eq_ok e6
          simp only [Res.ok.injEq] at e8
          rw [← e8]
          exact this
      · simp only [Res.ok.injEq] at e4
        rw [← e4]
        exact this
  · simp only [Res.ok.injEq] at e
    rw [← e]

theorem DFits.step (hok : c.Ok K) (hv : c.VFile) {d d' : Data} {x x' : Idx} {v v' : Var} {op : VOp} {o : VOut} (h : DFits c d)
    (hd : ∀ k a b, op = .put k a b → a.length = c.dataSize) (e : stepV c d x v op = .ok (d', x', v', o)) : DFits c d' := by
  cases op with
  | put k a b =>
    obtain ⟨-, r, w, hx, ho⟩ := put_parts hv hok.plain e
    have E := orderCheck_sameButCache (c := c) d k
    have h' := h.congr E.wbuf E.dev
    rw [putX_eq hok] at hx
    split_ifs at hx
    · obtain ⟨x1, -, hx⟩ := Res.bind_eq_ok hx
      cases hx
      exact h'.accepted hok _ _ _ (hd k a b rfl)
    · obtain ⟨x1, -, hx⟩ := Res.bind_eq_ok hx
      cases hx
      exact h'.accepted hok _ _ _ (hd k a b rfl)
    · cases hx
      exact h'
  | flush =>
    simp only [stepV, flushV] at e
    obtain ⟨⟨d1, x1, v1, r1⟩, e1, e2⟩ := Res.bind_eq_ok e
    obtain ⟨⟨d2, x2, r2, w2⟩, e3, e4⟩ := Res.bind_eq_ok e1
    have e5 : d' = d2 := by
      simp only [Res.ok.injEq, Prod.mk.injEq] at e2 e4
      split_ifs at e4 <;> (simp only [Res.ok.injEq, Prod.mk.injEq] at e4; rw [← e2.1, ← e4.1])
    subst e5
    by_cases hi : c.useIndex = true
    · rw [flushX_eq hok hi] at e3
      split_ifs at e3
      · cases e3; exact h
      · obtain ⟨⟨x3, b⟩, -, e3⟩ := Res.bind_eq_ok e3
        simp only at e3
        split_ifs at e3
        · cases e3; exact h.sealed hok
        · cases e3
          obtain ⟨h1, h2⟩ := h.out hok
          have hw : (indexPage c (outData c d) (some d.next)).wbuf = outPage d ∧ (indexPage c (outData c d) (some d.next)).dev = outDev c d := by
            unfold indexPage
            split_ifs <;> exact ⟨rfl, rfl⟩
          refine ⟨?_, ?_⟩
          · rw [hw.1, show pageCount (outPage d) = pageCount d.wbuf from outPage_count c d]; exact h.1
          · rw [hw.1, hw.2]; exact ⟨h1, h2⟩
    · unfold flushX at e3
      simp only [hi, Bool.false_eq_true, if_false] at e3
      split_ifs at e3
      · cases e3; exact h
      · rw [writePage_eq hok.io hok.spline, Res.ok_bind] at e3
        simp only at e3
        cases e3
        refine DFits.init hok rfl ?_
        have hw : (indexPage c (outData c d) (some d.next)).dev = outDev c d := by
          unfold indexPage
          split_ifs <;> rfl
        simp only [hw]
        exact (h.out hok).2
  | get k =>
    simp only [stepV] at e
    obtain ⟨⟨d1, r1, o1⟩, e1, e2⟩ := Res.bind_eq_ok e
    cases e2
    exact h.congr (get_same e1).wbuf (get_same e1).dev
  | getVar k =>
    simp only [stepV] at e
    obtain ⟨⟨d1, v1, r1, o1, s1⟩, e1, e2⟩ := Res.bind_eq_ok e
    obtain ⟨⟨v2, b2⟩, -, e3⟩ := Res.bind_eq_ok e2
    cases e3
    exact h.congr (getVar_keepsBuf e1) (getVar_dev e1)

/-! ### Lives -/

theorem cutFrom_log {a b : Dev} {j : Nat} {e : Ev} (h : e ∈ (cutFrom c a b j).log) : e ∈ a.log ∨ e ∈ b.log := by
  unfold cutFrom between at h
  rcases List.mem_append.mp h with h | h
  · exact Or.inl h
  · exact Or.inr (List.mem_of_mem_drop (List.mem_of_mem_take h))

theorem VFits.stepV (hp : c.vhdr ≤ c.pageSize) {d d' : Data} {x x' : Idx} {v v' : Var} {op : VOp} {o : VOut} (h : VFits c v)
    (e : stepV c d x v op = .ok (d', x', v', o)) : VFits c v' :=
  VFits.calls hp (s := ⟨d, x, v⟩) (t := ⟨d', x', v'⟩) h (Calls.ofOpsV [op] _ _ _ _ _ _ _ (Calls.none _) (by
    simp only [runOpsV, e, Res.ok_bind]))

/-- All pages written in a life. -/
theorem LifeW.fits {lo P R n0 Q : Nat} {first : Nat → Nat} {d : Data} {x : Idx} {v : Var} {l : VLog} (hok : c.Ok K) (hv : c.VFile)
    (h : LifeW c lo K P R n0 Q first d x v l) : DFits c d ∧ VFits c v := by
  have hp : c.vhdr ≤ c.pageSize := by have := hv.page; omega
  induction h with
  | new rb vrb sm hvf x => exact ⟨DFits.init hok rfl (by simp [Data.fresh]), within_zero _, by simp [Var.fresh]⟩
  | op h A hx e ih => exact ⟨ih.1.step hok hv (fun k a b h => (A.client.put k a b (by rw [h]; simp)).2.2.1) e, ih.2.stepV hp e⟩
  | @cut R n0 Q first d d'' x x'' v v'' l op D V h A hop hf hspl h32 hV rb vrb sm hvf hr ih =>
    have K := reopenV_keeps hok.plain D V rb vrb sm hvf
    rw [hr] at K
    obtain ⟨⟨k1, k2⟩, k3, k4⟩ := K
    simp only at k1 k2 k3 k4
    have hs : ∀ {d' x' v' o}, EDB.stepV c d x v op = .ok (d', x', v', o) → DFits c d' ∧ VFits c v' := fun e =>
      ⟨ih.1.step hok hv (fun k a b h => (A.client.put k a b (by rw [h]; simp)).2.2.1) e, ih.2.stepV hp e⟩
    have hw : (∀ ph p, Ev.write ph p ∈ D.log → Page.within p c.pageSize) ∧ ∀ ph p, Ev.write ph p ∈ V.log → Page.within p c.pageSize := by
      have hpre := ih.2.preVar hp d
      have hcut : ∀ {a b : Dev} {j : Nat}, (∀ ph p, Ev.write ph p ∈ a.log → Page.within p c.pageSize) →
          (∀ ph p, Ev.write ph p ∈ b.log → Page.within p c.pageSize) → ∀ ph p, Ev.write ph p ∈ (cutFrom c a b j).log → Page.within p c.pageSize := by
        intro a b j ha hb ph p he
        rcases cutFrom_log he with he | he
        · exact ha ph p he
        · exact hb ph p he
      cases hf with
      | putBefore k a b j => exact ⟨ih.1.2.2, hcut ih.2.2 hpre.2⟩
      | putData k a b j e => exact ⟨hcut ih.1.2.2 (hs e).1.2.2, hpre.2⟩
      | putAfter k a b j e => exact ⟨(hs e).1.2.2, hcut hpre.2 (hs e).2.2⟩
      | flushData j e => exact absurd rfl hop
      | flushVar j e => exact absurd rfl hop
      | get k => exact ⟨ih.1.2.2, ih.2.2⟩
      | getVar k j e => exact ⟨ih.1.2.2, hcut ih.2.2 (hs e).2.2⟩
    refine ⟨DFits.init hok k1 (by rw [k2]; exact hw.1), by rw [k3]; exact within_zero _, ?_⟩
    rcases k4 with k4 | k4
    · rw [k4]; exact hw.2
    · rw [k4]; simp

theorem VarLives.fits {s : Trio} (hp : c.vhdr ≤ c.pageSize) (h : VarLives c s) : VFits c s.v := by
  induction h with
  | fresh rb rx rv sm hv => exact ⟨within_zero _, by simp [Trio.fresh, Var.fresh]⟩
  | call h e ih => exact ih.call hp e
  | @power s h l hl hc D q rb vrb sm hv x d' v' e ih =>
    have hw : ∀ ph p, Ev.write ph p ∈ l → Page.within p c.pageSize := fun ph p he => ih.2 ph p (hl.subset he)
    unfold reopenV at e
    simp only at e
    split_ifs at e with g1 g2
    · simp only [Prod.mk.injEq] at e
      exact absurd e.2.2 g1
    · obtain ⟨-, h5, h6⟩ := recoverVar_keeps (c := c) (recover c D rb sm).1 (Var.opening c ⟨Spec.image c.eraseFx l, l, q⟩ vrb hv)
      rw [e] at h5 h6
      simp only at h5 h6
      refine ⟨?_, ?_⟩
      · simp only [h5]; exact within_zero _
      · simp only [h6]; exact hw
    · cases e
      exact ⟨within_zero _, by simp [Var.fresh]⟩

/-! ### Bytes -/

/-- The bytes produced by the operations on a ring are those of its image. -/
theorem LRing.holds {N B sz n a : Nat} {keep : Prop} (hN : 0 < N) (h32 : sz * N < 2 ^ 32) {log : List Ev} (h : LRing N B keep log n a) :
    PagesHeld sz (desk sz false log) (min n N) (storeOf sz (Spec.image id log)) := by
  induction h with
  | nil => rw [Nat.zero_min]; exact PagesHeld.nil
  | @write log n a h ha p hp ih =>
    have hlt := Nat.mod_lt n hN
    have hle : n % N ≤ min n N := by
      have := Nat.mod_le n N
      omega
    have h1 : sz * (n % N) < 2 ^ 32 := lt_of_le_of_lt (Nat.mul_le_mul_left _ hlt.le) h32
    have H := ih.write h1 hle (rd p 0 sz) (rd_length _ _ _)
    rw [desk_snoc, image_snoc]
    have hk : min (n + 1) N = max (min n N) (n % N + 1) := by
      rcases Nat.lt_or_ge n N with h | h
      · rw [Nat.mod_eq_of_lt h]; omega
      · omega
    rw [hk]
    have hs : storeOf sz (Spec.applyEv id (Spec.image id log) (.write (n % N) p)) =
        (storeOf sz (Spec.image id log)).write (n % N) (rd p 0 sz) := by
      funext i
      unfold storeOf Spec.PageStore.write
      simp only [Spec.applyEv]
      split_ifs <;> rfl
    rw [hs]
    exact H
  | @erase log n h ih =>
    rw [desk_snoc, image_snoc]
    have hs : storeOf sz (Spec.applyEv id (Spec.image id log) (.erase (n % N) (n % N + B))) = storeOf sz (Spec.image id log) := by
      funext i
      unfold storeOf
      simp only [Spec.applyEv]
      simp
    rw [hs]
    exact ih
  | reopen h ht ih => exact ih

end EDB
