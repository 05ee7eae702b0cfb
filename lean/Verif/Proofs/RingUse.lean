import Verif.Model.Calls
import Verif.Proofs.Ring
import Verif.Proofs.IdxScan

/-!
# Every call keeps the three files rings

No assumption on keys, comparators, search mode or page layout.  For the variable data file not even on the device: when a
request fails the library keeps its counters.  For the data and the index file the device must not fail.
-/

namespace EDB

variable {c : Cfg}

/-! ### Variable data -/

/-- A description of the operations on the variable data file (`log`, next page, space) that the library keeps. -/
structure RingRule (c : Cfg) (R : List Ev → Nat → Nat → Prop) : Prop where
  pos : 0 < c.B
  write : ∀ {log n a}, R log n a → a ≠ 0 → ∀ p, pageId p = n % 2 ^ 32 → R (log ++ [.write (n % c.numVar) p]) (n + 1) (a - 1)
  erase : ∀ {log n}, R log n 0 → R (log ++ [.erase (n % c.numVar) (n % c.numVar + c.B)]) n c.B

def VarRing (c : Cfg) (R : List Ev → Nat → Nat → Prop) (v : Var) : Prop :=
  v.dev.file = Spec.image c.eraseFx v.dev.log ∧ R v.dev.log v.next v.avail

variable {R : List Ev → Nat → Nat → Prop}

theorem VarRing.start (h : R [] 0 c.numVar) (rv : Page) (hv : Bool) : VarRing c R (Var.fresh c rv hv) := ⟨rfl, h⟩

theorem VarRing.readVar {v : Var} (h : VarRing c R v) (ph : Nat) : VarRing c R (readVar v ph).1 := by
  unfold EDB.readVar
  split_ifs
  · exact h
  · cases v.dev.file ph <;> exact h

theorem VarRing.storeVar (hR : RingRule c R) {v : Var} (h : VarRing c R v) (ha : v.avail ≠ 0) :
    VarRing c R (storeVar c v).1 := by
  unfold EDB.storeVar Dev.write
  by_cases hio : c.ioOk v.dev.reqs = true
  · simp only [if_pos hio, if_true]
    refine ⟨?_, hR.write h.2 ha _ (pageId_wr _ _)⟩
    simp only [Spec.image, List.foldl_append, List.foldl_cons, List.foldl_nil]
    rw [h.1]; rfl
  · simp only [if_neg hio]
    exact h

theorem VarRing.writeVar (hR : RingRule c R) {v : Var} (h : VarRing c R v) : VarRing c R (writeVar c v).1 := by
  unfold EDB.writeVar
  simp only
  by_cases ha : v.avail = 0
  · rw [if_pos ha]
    by_cases hio : c.ioOk v.dev.reqs = true
    · have h1 : (v.dev.erase c (v.next % c.numVar) (v.next % c.numVar + c.B)).2 = true := by
        unfold Dev.erase; rw [if_pos hio]
      have h2 : VarRing c R { v with dev := (v.dev.erase c (v.next % c.numVar) (v.next % c.numVar + c.B)).1, avail := v.avail + c.B } := by
        unfold Dev.erase
        simp only [if_pos hio]
        have h2 := h.2
        rw [ha] at h2
        refine ⟨?_, ?_⟩
        · simp only [Spec.image, List.foldl_append, List.foldl_cons, List.foldl_nil]
          rw [h.1]; rfl
        · simp only [ha, Nat.zero_add]
          exact hR.erase h2
      rw [if_pos h1]
      have h3 := h2.readVar ((v.next % c.numVar + c.B - 1) % c.numVar)
      have h4 : (EDB.readVar { v with dev := (v.dev.erase c (v.next % c.numVar) (v.next % c.numVar + c.B)).1, avail := v.avail + c.B }
          ((v.next % c.numVar + c.B - 1) % c.numVar)).1.avail = v.avail + c.B := by
        unfold EDB.readVar
        split_ifs
        · rfl
        · split <;> rfl
      have hB := hR.pos
      split_ifs
      · exact VarRing.storeVar hR (v := { (EDB.readVar _ _).1 with minRec := _ }) h3 (by simp only [h4]; omega)
      · exact h3
    · have h1 : (v.dev.erase c (v.next % c.numVar) (v.next % c.numVar + c.B)).2 = false := by
        unfold Dev.erase; rw [if_neg hio]
      rw [if_neg (by simp [h1])]
      unfold Dev.erase
      simp only [if_neg hio]
      exact h
  · rw [if_neg ha]
    exact h.storeVar hR ha

theorem VarRing.flushVar (hR : RingRule c R) {v : Var} (h : VarRing c R v) : VarRing c R (flushVar c v).1 := by
  unfold EDB.flushVar
  split_ifs
  · exact h
  · have h1 := h.writeVar hR
    rcases hw : EDB.writeVar c v with ⟨v', _ | n⟩
    · rw [hw] at h1; exact h1
    · rw [hw] at h1; exact h1

theorem VarRing.rollVar (hR : RingRule c R) {v : Var} (h : VarRing c R v) (key : Nat) : VarRing c R (rollVar c key v) := by
  unfold EDB.rollVar
  split_ifs
  · exact h.writeVar hR
  · exact h

theorem VarRing.putChunks (hR : RingRule c R) (key : Nat) : ∀ (f : Nat) (v v' : Var) (bs : List Byte), VarRing c R v →
    putChunks c key f v bs = .ok v' → VarRing c R v' := by
  intro f
  induction f with
  | zero => intro v v' bs h e; simp [EDB.putChunks] at e
  | succ f ih =>
    intro v v' bs h e
    unfold EDB.putChunks at e
    split_ifs at e
    · cases e; exact h
    · refine ih _ _ _ ?_ e
      refine VarRing.rollVar hR ?_ key
      exact h

theorem VarRing.preVar (hR : RingRule c R) {v : Var} (h : VarRing c R v) (d : Data) : VarRing c R (preVar c d v) := by
  unfold EDB.preVar
  split_ifs
  · exact h.writeVar hR
  · exact h

theorem VarRing.storeBytes (hR : RingRule c R) {v v' : Var} (h : VarRing c R v) {key : Nat} {bs : List Byte}
    (e : storeBytes c v key bs = .ok v') : VarRing c R v' := by
  unfold EDB.storeBytes at e
  have h1 : VarRing c R (if v.minRec = 2 ^ 64 - 1 then { v with minRec := setLow c.keySize v.minRec key } else v) := by
    split_ifs <;> exact h
  simp only at e
  generalize (if v.minRec = 2 ^ 64 - 1 then { v with minRec := setLow c.keySize v.minRec key } else v) = u at e h1
  by_cases h2 : u.loc % c.pageSize + 4 > c.pageSize
  · rw [if_pos h2] at e; cases e
  · rw [if_neg h2] at e
    refine VarRing.putChunks hR key _ _ _ _ ?_ e
    refine VarRing.rollVar hR ?_ key
    exact h1

theorem VarRing.putRest (hR : RingRule c R) (hu : c.useVdata = true) {d d' : Data} {x x' : Idx} {v v' : Var} {key : Nat} {data : List Byte}
    {vd : Option (List Byte)} {r : Int} (h1 : VarRing c R (EDB.preVar c d v)) (e : putVar c d x v key data vd = .ok (d', x', v', r)) :
    VarRing c R v' := by
  unfold EDB.putVar at e
  rw [if_pos hu] at e
  cases vd with
  | none =>
    simp only at e
    obtain ⟨⟨d1, x1, r1, w1⟩, -, e⟩ := Res.bind_eq_ok e
    cases e
    exact h1
  | some bs =>
    simp only at e
    obtain ⟨⟨d1, x1, r1, w1⟩, -, e⟩ := Res.bind_eq_ok e
    simp only at e
    split_ifs at e
    · cases e; exact h1
    · obtain ⟨v1, h2, e⟩ := Res.bind_eq_ok e
      cases e
      have h3 : VarRing c R v1 := VarRing.storeBytes hR (v := { EDB.preVar c d v with hasVar := true }) h1 h2
      exact h3.flushVar hR
    · obtain ⟨v1, h2, e⟩ := Res.bind_eq_ok e
      cases e
      exact VarRing.storeBytes hR (v := { EDB.preVar c d v with hasVar := true }) h1 h2

theorem VarRing.putVar (hR : RingRule c R) {d d' : Data} {x x' : Idx} {v v' : Var} {key : Nat} {data : List Byte}
    {vd : Option (List Byte)} {r : Int} (h : VarRing c R v) (e : putVar c d x v key data vd = .ok (d', x', v', r)) :
    VarRing c R v' := by
  by_cases hu : c.useVdata = true
  · exact (h.preVar hR d).putRest hR hu e
  · unfold EDB.putVar at e
    rw [if_neg hu] at e; cases e; exact h

theorem VarRing.setupStream {d : Data} {v v' : Var} {key i : Nat} {r : Int} {st : Option Stream} (h : VarRing c R v)
    (e : setupStream c d v key i = .ok (v', r, st)) : VarRing c R v' := by
  unfold EDB.setupStream at e
  simp only at e
  have h1 := h.readVar (slotLoc c d.rbuf i / c.pageSize % c.numVar)
  by_cases a : slotLoc c d.rbuf i = noVar
  · rw [if_pos a] at e; cases e; exact h
  · rw [if_neg a] at e
    by_cases b : c.cmpKey key (v.minRec % 256 ^ c.keySize) < 0
    · rw [if_pos b] at e; cases e; exact h
    · rw [if_neg b] at e
      generalize EDB.readVar v (slotLoc c d.rbuf i / c.pageSize % c.numVar) = q at e h1
      by_cases g : q.2 = true
      · rw [if_pos g] at e
        by_cases g2 : slotLoc c d.rbuf i % c.pageSize + 4 > c.pageSize
        · rw [if_pos g2] at e; cases e
        · rw [if_neg g2] at e; cases e; exact h1
      · rw [if_neg g] at e; cases e; exact h1

theorem VarRing.getVar (hR : RingRule c R) {d d' : Data} {v v' : Var} {key : Nat} {r : Int} {out : Option (List Byte)}
    {st : Option Stream} (h : VarRing c R v) (e : getVar c d v key = .ok (d', v', r, out, st)) : VarRing c R v' := by
  unfold EDB.getVar at e
  by_cases hu : c.useVdata = true
  · rw [if_pos hu] at e
    obtain ⟨⟨r1, o1⟩, -, e⟩ := Res.bind_eq_ok e
    simp only at e
    split_ifs at e
    · obtain ⟨⟨v1, s1, t1⟩, h2, e⟩ := Res.bind_eq_ok e
      cases e
      exact VarRing.setupStream (h.flushVar hR) h2
    · obtain ⟨⟨d1, r2, o2⟩, h1, e⟩ := Res.bind_eq_ok e
      simp only at e
      split_ifs at e
      · obtain ⟨o3, -, e⟩ := Res.bind_eq_ok e
        cases o3 with
        | none => cases e
        | some i =>
          simp only at e
          split_ifs at e
          obtain ⟨⟨v1, s1, t1⟩, h2, e⟩ := Res.bind_eq_ok e
          cases e
          exact VarRing.setupStream h h2
      · cases e; exact h
  · rw [if_neg hu] at e; cases e; exact h

theorem VarRing.streamLoop (len : Nat) : ∀ (f : Nat) (v v' : Var) (st st' : Stream) (pg : Nat) (acc bs : List Byte),
    VarRing c R v → streamLoop c len f v st pg acc = .ok (v', st', bs) → VarRing c R v' := by
  intro f
  induction f with
  | zero => intro v v' st st' pg acc bs h e; simp [EDB.streamLoop] at e
  | succ f ih =>
    intro v v' st st' pg acc bs h e
    unfold EDB.streamLoop at e
    simp only at e
    split_ifs at e
    · exact ih _ _ _ _ _ _ _ (h.readVar _) e
    · cases e; exact h.readVar _
    · exact ih _ _ _ _ _ _ _ h e
    · cases e; exact h

theorem VarRing.streamRead {v v' : Var} {st st' : Stream} {len : Nat} {bs : List Byte} (h : VarRing c R v)
    (e : streamRead c v st len = .ok (v', st', bs)) : VarRing c R v' := by
  unfold EDB.streamRead at e
  simp only at e
  split_ifs at e
  · exact VarRing.streamLoop _ _ _ _ _ _ _ _ _ (h.readVar _) e
  · cases e; exact h.readVar _

theorem VarRing.call (hR : RingRule c R) {s t : Trio} (h : VarRing c R s.v) (e : Call c s t) : VarRing c R t.v := by
  cases e with
  | put key data loc e => exact h
  | putVar key data vd e => exact VarRing.putVar hR h e
  | flush e => exact h
  | flushAll e =>
    unfold flushV at e
    obtain ⟨⟨d1, x1, r1, w1⟩, -, e⟩ := Res.bind_eq_ok e
    simp only at e
    split_ifs at e
    · cases e; exact VarRing.flushVar hR h
    · cases e; exact h
  | flushVar => exact VarRing.flushVar hR h
  | get key e => exact h
  | getVar key e => exact VarRing.getVar hR h e
  | next it e => exact h
  | nextVar it e =>
    unfold EDB.nextVar at e
    by_cases hu : c.useVdata = true
    · rw [if_pos hu] at e
      obtain ⟨⟨d1, x1, i1, o1⟩, -, e⟩ := Res.bind_eq_ok e
      cases o1 with
      | none => cases e; exact h
      | some r =>
        simp only at e
        obtain ⟨⟨v1, s1, t1⟩, h2, e⟩ := Res.bind_eq_ok e
        cases e
        refine VarRing.setupStream ?_ h2
        split_ifs
        · exact VarRing.flushVar hR h
        · exact h
    · rw [if_neg hu] at e; cases e; exact h
  | read st len e => exact VarRing.streamRead h e

theorem VarRing.calls (hR : RingRule c R) {s t : Trio} (h : VarRing c R s.v) (e : Calls c s t) : VarRing c R t.v := by
  induction e with
  | none => exact h
  | one _ e ih => exact VarRing.call hR ih e

/-! ### Index -/

def IdxRing (c : Cfg) (x : Idx) : Prop := RingFile c c.numIdx x.dev x.next x.avail

theorem IdxRing.same {x x' : Idx} (h : IdxRing c x) (e : SameIdx x x') : IdxRing c x' := by
  unfold IdxRing; rw [e.dev, e.next, e.avail]; exact h

theorem IdxRing.writeIdx (hB : 0 < c.B) (hio : ∀ n, c.ioOk n = true) {x : Idx} (h : IdxRing c x) :
    IdxRing c (writeIdx c x).1 := by
  have hw : ∀ (v : Dev) ph p, (v.write c ph p).2 = true := by
    intro v ph p; unfold Dev.write; rw [if_pos (hio _)]
  have he : ∀ (v : Dev) lo hi, (v.erase c lo hi).2 = true := by
    intro v lo hi; unfold Dev.erase; rw [if_pos (hio _)]
  unfold EDB.writeIdx
  simp only
  by_cases ha : x.avail = 0
  · rw [if_pos ha]
    simp only [hw, he, if_true]
    have h' : RingFile c c.numIdx x.dev x.next 0 := by unfold IdxRing at h; rw [ha] at h; exact h
    rcases h'.erase with ⟨h1, h2⟩ | ⟨h1, h2⟩
    · rcases RingFile.write (c := c) h2 (by omega) (wr x.wbuf 0 (leBytes 4 x.next)) with ⟨h3, h4⟩ | ⟨h3, h4⟩
      · unfold IdxRing
        rw [ha]; exact h4
      · rw [hw] at h3; cases h3
    · rw [he] at h1; cases h1
  · rw [if_neg ha]
    simp only [hw, if_true]
    rcases RingFile.write (c := c) h ha (wr x.wbuf 0 (leBytes 4 x.next)) with ⟨h3, h4⟩ | ⟨h3, h4⟩
    · exact h4
    · rw [hw] at h3; cases h3

theorem IdxRing.append {x x' : Idx} {bm : List Byte} (h : IdxRing c x) (e : idxAppend c x bm = .ok x') : IdxRing c x' := by
  unfold idxAppend at e
  simp only at e
  split_ifs at e
  cases e; exact h

theorem IdxRing.put (hB : 0 < c.B) (hio : ∀ n, c.ioOk n = true) {x x' : Idx} {pn : Option Nat} {bm : List Byte}
    (h : IdxRing c x) (e : idxPut c x pn bm = .ok x') : IdxRing c x' := by
  unfold idxPut at e
  split_ifs at e
  · refine IdxRing.append ?_ e
    exact h.writeIdx hB hio
  · exact h.append e

theorem IdxRing.flush (hB : 0 < c.B) (hio : ∀ n, c.ioOk n = true) {x x' : Idx} {bm : List Byte} {ok : Bool}
    (h : IdxRing c x) (e : idxFlush c x bm = .ok (x', ok)) : IdxRing c x' := by
  unfold idxFlush at e
  obtain ⟨x1, h1, e⟩ := Res.bind_eq_ok e
  have h2 := (h.append h1).writeIdx hB hio
  rcases hw : EDB.writeIdx c x1 with ⟨x2, _ | n⟩
  · rw [hw] at e h2; cases e; exact h2
  · rw [hw] at e h2; cases e; exact h2

/-! ### Data -/

def DataRing (c : Cfg) (d : Data) : Prop := RingFile c c.N d.dev d.next d.avail

theorem DataRing.same {d d' : Data} (h : DataRing c d) (e : SameButCache d d') : DataRing c d' := by
  unfold DataRing; rw [e.dev, e.next, e.avail]; exact h

theorem DataRing.writePage (hB : 0 < c.B) (hio : ∀ n, c.ioOk n = true) {d d' : Data} {pn : Option Nat} (h : DataRing c d)
    (e : writePage c d = .ok (d', pn)) : DataRing c d' := by
  have hw : ∀ (v : Dev) ph p, (v.write c ph p).2 = true := by
    intro v ph p; unfold Dev.write; rw [if_pos (hio _)]
  have he : ∀ (v : Dev) lo hi, (v.erase c lo hi).2 = true := by
    intro v lo hi; unfold Dev.erase; rw [if_pos (hio _)]
  unfold EDB.writePage at e
  simp only at e
  by_cases ha : d.avail = 0
  · rw [if_pos ha] at e
    simp only [hw, he, if_true] at e
    obtain ⟨d1, hc, e⟩ := Res.bind_eq_ok e
    cases e
    have h' : RingFile c c.N d.dev d.next 0 := by unfold DataRing at h; rw [ha] at h; exact h
    have h1 : d1.dev = (d.dev.erase c (d.next % c.N) (d.next % c.N + c.B)).1 ∧ d1.next = d.next + 1 ∧ d1.avail = d.avail + c.B := by
      unfold cleanStep at hc
      split_ifs at hc
      · cases hc; exact ⟨rfl, rfl, rfl⟩
      · cases hc; exact ⟨rfl, rfl, rfl⟩
    rcases h'.erase with ⟨-, h2⟩ | ⟨h1, h2⟩
    · rcases RingFile.write (c := c) h2 (by omega) d1.wbuf with ⟨h3, h4⟩ | ⟨h3, h4⟩
      · unfold DataRing
        simp only [h1.1, h1.2.1, h1.2.2, ha]
        exact h4
      · rw [hw] at h3; cases h3
    · rw [he] at h1; cases h1
  · rw [if_neg ha] at e
    simp only [hw, if_true] at e
    cases e
    rcases RingFile.write (c := c) h ha (wr d.wbuf 0 (leBytes 4 d.next)) with ⟨h3, h4⟩ | ⟨h3, h4⟩
    · exact h4
    · rw [hw] at h3; cases h3

theorem DataRing.indexPage {d : Data} (h : DataRing c d) (pn : Option Nat) : DataRing c (indexPage c d pn) := by
  unfold EDB.indexPage
  split_ifs <;> exact h

/-! ### Both -/

def BothRing (c : Cfg) (d : Data) (x : Idx) : Prop := (c.rlc = false → DataRing c d) ∧ IdxRing c x

theorem IdxRing.putX (hB : 0 < c.B) (hio : ∀ n, c.ioOk n = true) {d d' : Data} {x x' : Idx} {key loc : Nat}
    {data : List Byte} {r : Int} {w : Bool} (h : BothRing c d x) (e : putX c d x key data loc = .ok (d', x', r, w)) :
    BothRing c d' x' := by
  have hf : ∀ {d1 d2 : Data} {b : Bool} {r : Int} {w : Bool}, finishPut c d1 b key data loc = .ok (d2, r, w) →
      (c.rlc = false → DataRing c d1) → c.rlc = false → DataRing c d2 := by
    intro d1 d2 b r w e g hr
    unfold finishPut at e
    rw [hr] at e
    cases e
    exact g hr
  unfold EDB.putX at e
  have hs : SameButCache d (orderCheck c d key).1 := orderCheck_same d key
  rcases hoc : orderCheck c d key with ⟨d1, ok⟩
  rw [hoc] at e hs
  simp only at e hs
  have h1 : c.rlc = false → DataRing c d1 := fun hr => (h.1 hr).same hs
  split_ifs at e
  · obtain ⟨⟨d2, pn⟩, h2, e⟩ := Res.bind_eq_ok e
    simp only at e
    obtain ⟨x2, h3, e⟩ := Res.bind_eq_ok e
    obtain ⟨⟨d3, r3, w3⟩, h4, e⟩ := Res.bind_eq_ok e
    cases e
    refine ⟨hf h4 fun hr => ?_, IdxRing.put hB hio h.2 h3⟩
    exact DataRing.indexPage ((h1 hr).writePage hB hio h2) pn
  · obtain ⟨⟨d2, pn⟩, h2, e⟩ := Res.bind_eq_ok e
    simp only at e
    obtain ⟨x2, h3, e⟩ := Res.bind_eq_ok e
    obtain ⟨⟨d3, r3, w3⟩, h4, e⟩ := Res.bind_eq_ok e
    cases e
    cases h3
    refine ⟨hf h4 fun hr => ?_, h.2⟩
    exact DataRing.indexPage ((h1 hr).writePage hB hio h2) pn
  · obtain ⟨⟨d3, r3, w3⟩, h4, e⟩ := Res.bind_eq_ok e
    cases e
    exact ⟨hf h4 h1, h.2⟩
  · cases e
    exact ⟨h1, h.2⟩

theorem IdxRing.flushX (hB : 0 < c.B) (hio : ∀ n, c.ioOk n = true) {d d' : Data} {x x' : Idx} {r : Int} {w : Bool}
    (h : BothRing c d x) (e : flushX c d x = .ok (d', x', r, w)) : BothRing c d' x' := by
  unfold EDB.flushX at e
  split_ifs at e
  · cases e; exact h
  · obtain ⟨⟨d2, pn⟩, h2, e⟩ := Res.bind_eq_ok e
    have h3 : c.rlc = false → DataRing c d2 := fun hr => (h.1 hr).writePage hB hio h2
    cases pn with
    | none => cases e; exact ⟨h3, h.2⟩
    | some n =>
      simp only at e
      have h4 : c.rlc = false → DataRing c (indexPage c d2 (some n)) := fun hr => (h3 hr).indexPage _
      obtain ⟨⟨x2, ok⟩, h5, e⟩ := Res.bind_eq_ok e
      have h6 := IdxRing.flush hB hio h.2 h5
      cases ok
      · cases e; exact ⟨h4, h6⟩
      · cases e; exact ⟨h4, h6⟩
  · obtain ⟨⟨d2, pn⟩, h2, e⟩ := Res.bind_eq_ok e
    have h3 : c.rlc = false → DataRing c d2 := fun hr => (h.1 hr).writePage hB hio h2
    cases pn with
    | none => cases e; exact ⟨h3, h.2⟩
    | some n => cases e; exact ⟨fun hr => (h3 hr).indexPage (some n), h.2⟩

theorem BothRing.reads {d d' : Data} {x x' : Idx} (h : BothRing c d x) (e : SameButCache d d') (g : SameIdx x x') :
    BothRing c d' x' := ⟨fun hr => (h.1 hr).same e, h.2.same g⟩

theorem BothRing.call (hB : 0 < c.B) (hio : ∀ n, c.ioOk n = true) {s t : Trio} (h : BothRing c s.d s.x) (e : Call c s t) :
    BothRing c t.d t.x := by
  cases e with
  | put key data loc e => exact IdxRing.putX hB hio h e
  | @putVar d x v d' x' v' r key data vd e =>
    unfold putVar at e
    by_cases hu : c.useVdata = true
    · rw [if_pos hu] at e
      cases vd with
      | none =>
        simp only at e
        obtain ⟨⟨d1, x1, r1, w1⟩, h1, e⟩ := Res.bind_eq_ok e
        cases e
        exact IdxRing.putX hB hio h h1
      | some bs =>
        simp only at e
        obtain ⟨⟨d1, x1, r1, w1⟩, h1, e⟩ := Res.bind_eq_ok e
        have h2 := IdxRing.putX hB hio h h1
        simp only at e
        split_ifs at e
        · cases e; exact h2
        · obtain ⟨v1, -, e⟩ := Res.bind_eq_ok e
          cases e; exact h2
        · obtain ⟨v1, -, e⟩ := Res.bind_eq_ok e
          cases e; exact h2
    · rw [if_neg hu] at e; cases e; exact h
  | flush e => exact IdxRing.flushX hB hio h e
  | flushAll e =>
    unfold flushV at e
    obtain ⟨⟨d1, x1, r1, w1⟩, h1, e⟩ := Res.bind_eq_ok e
    have h2 := IdxRing.flushX hB hio h h1
    simp only at e
    split_ifs at e
    · cases e; exact h2
    · cases e; exact h2
  | flushVar => exact h
  | get key e => exact h.reads (get_same e) (SameIdx.refl _)
  | @getVar d x v d' v' r out st key e =>
    refine ⟨fun hr => ?_, h.2⟩
    have : ∃ d0, SameButCache d d0 ∧ d'.dev = d0.dev ∧ d'.next = d0.next ∧ d'.avail = d0.avail := by
      unfold getVar at e
      by_cases hu : c.useVdata = true
      · rw [if_pos hu] at e
        obtain ⟨⟨r1, o1⟩, -, e⟩ := Res.bind_eq_ok e
        simp only at e
        split_ifs at e
        · obtain ⟨⟨v1, s1, t1⟩, h2, e⟩ := Res.bind_eq_ok e
          cases e
          exact ⟨d, SameButCache.refl d, rfl, rfl, rfl⟩
        · obtain ⟨⟨d1, r2, o2⟩, h1, e⟩ := Res.bind_eq_ok e
          have hd := get_same h1
          simp only at e
          split_ifs at e
          · obtain ⟨o3, -, e⟩ := Res.bind_eq_ok e
            cases o3 with
            | none => cases e
            | some i =>
              simp only at e
              split_ifs at e
              obtain ⟨⟨v1, s1, t1⟩, h2, e⟩ := Res.bind_eq_ok e
              cases e
              exact ⟨d', hd, rfl, rfl, rfl⟩
          · cases e; exact ⟨d', hd, rfl, rfl, rfl⟩
      · rw [if_neg hu] at e; cases e; exact ⟨_, SameButCache.refl _, rfl, rfl, rfl⟩
    obtain ⟨d0, h0, a1, a2, a3⟩ := this
    have h1 := (h.1 hr).same h0
    unfold DataRing at h1 ⊢
    rw [a1, a2, a3]; exact h1
  | next it e => exact h.reads (nextLoop_same _ _ _ _ _ _ _ _ e) (nextLoop_sameIdx _ _ _ _ _ _ _ _ e)
  | nextVar it e =>
    unfold EDB.nextVar at e
    by_cases hu : c.useVdata = true
    · rw [if_pos hu] at e
      obtain ⟨⟨d1, x1, i1, o1⟩, h1, e⟩ := Res.bind_eq_ok e
      have h2 := h.reads (nextLoop_same _ _ _ _ _ _ _ _ h1) (nextLoop_sameIdx _ _ _ _ _ _ _ _ h1)
      cases o1 with
      | none => cases e; exact h2
      | some r =>
        simp only at e
        obtain ⟨⟨v1, s1, t1⟩, -, e⟩ := Res.bind_eq_ok e
        cases e
        refine ⟨fun hr => ?_, h2.2⟩
        have h3 := h2.1 hr
        simp only
        split_ifs
        · exact h3
        · exact h3
    · rw [if_neg hu] at e; cases e; exact h
  | read st len e => exact h

theorem BothRing.calls (hB : 0 < c.B) (hio : ∀ n, c.ioOk n = true) {s t : Trio} (h : BothRing c s.d s.x)
    (e : Calls c s t) : BothRing c t.d t.x := by
  induction e with
  | none => exact h
  | one _ e ih => exact BothRing.call hB hio ih e

end EDB
