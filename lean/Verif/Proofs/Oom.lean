import Verif.Model.Oom
import Verif.Proofs.Memory

/-!
# Who owns which block when requests for memory may fail

Ownership is counted as in `Proofs/Memory`.
-/

namespace EDB

open Spec (Heap Tree)

def oneSN : SchemaN → Nat → Nat
  | none, _ => 0
  | some (s, cs), a => one s a + oneOpt cs a

/-- A request between numbers `a` and `b` has failed. -/
def Miss (g : Nat → Bool) (a b : Nat) : Prop := ∃ i, a ≤ i ∧ i < b ∧ g i = false

theorem Miss.mono {g : Nat → Bool} {a b a' b' : Nat} (h : Miss g a b) (ha : a' ≤ a) (hb : b ≤ b') : Miss g a' b' := by
  obtain ⟨i, h1, h2, h3⟩ := h
  exact ⟨i, by omega, by omega, h3⟩

/-- Requests `a`, .. have been made in between, and nothing else about the memory has changed. -/
structure Mem.Later (m m' : Mem) : Prop where
  gives : m'.gives = m.gives
  asked : m.asked ≤ m'.asked

theorem Mem.Later.rfl' (m : Mem) : m.Later m := ⟨rfl, Nat.le_refl _⟩

theorem Mem.Later.trans {a b c : Mem} (h : a.Later b) (k : b.Later c) : a.Later c :=
  ⟨k.gives.trans h.gives, h.asked.trans k.asked⟩

theorem alloc_cases (m : Mem) :
    (∃ m' p, m.alloc = (m', some p) ∧ m.Later m' ∧ m.gives m.asked = true ∧
      ∀ a, m'.heap.live.count a = one p a + m.heap.live.count a) ∨
    (∃ m', m.alloc = (m', none) ∧ m.Later m' ∧ Miss m.gives m.asked m'.asked ∧
      ∀ a, m'.heap.live.count a = m.heap.live.count a) := by
  unfold Mem.alloc
  by_cases h : m.gives m.asked
  · rw [if_pos h]
    exact .inl ⟨_, _, rfl, ⟨rfl, Nat.le_succ _⟩, h, fun a => malloc_count _ a⟩
  · rw [if_neg h]
    exact .inr ⟨_, rfl, ⟨rfl, Nat.le_succ _⟩, ⟨m.asked, Nat.le_refl _, Nat.lt_succ_self _, by simpa using h⟩, fun a => rfl⟩

theorem newSchemaN_cases (m : Mem) :
    (∃ m' s cs, m.newSchema = (m', some (s, some cs), true) ∧ m.Later m' ∧ m.gives m.asked = true ∧
      ∀ a, m'.heap.live.count a = oneSN (some (s, some cs)) a + m.heap.live.count a) ∨
    (∃ m' s, m.newSchema = (m', s, false) ∧ m.Later m' ∧ Miss m.gives m.asked m'.asked ∧
      ∀ a, m'.heap.live.count a = oneSN s a + m.heap.live.count a) := by
  unfold Mem.newSchema
  rcases alloc_cases m with ⟨m1, s, e, l, g, c⟩ | ⟨m1, e, l, g, c⟩
  · simp only [e]
    rcases alloc_cases m1 with ⟨m2, cs, e', l', g', c'⟩ | ⟨m2, e', l', g', c'⟩
    · simp only [e']
      refine .inl ⟨_, _, _, rfl, l.trans l', g, fun a => ?_⟩
      rw [c', c]
      simp only [oneSN, oneOpt]
      omega
    · simp only [e']
      rw [l.gives] at g'
      refine .inr ⟨_, _, rfl, l.trans l', g'.mono l.asked (Nat.le_refl _), fun a => ?_⟩
      rw [c', c]
      simp only [oneSN, oneOpt]
      omega
  · simp only [e]
    refine .inr ⟨_, _, rfl, l, g, fun a => ?_⟩
    rw [c]
    simp only [oneSN]
    omega

theorem derefS_ok {h : Heap} {s cs : Nat} (hc : ∀ a, oneSN (some (s, some cs)) a ≤ h.live.count a) :
    derefS h (some (s, some cs)) = .ok () := by
  have h1 := hc s
  have h2 := hc cs
  simp only [oneSN, oneOpt, one_self] at h1 h2
  show (deref h (some s) >>= fun _ => deref h (some cs)) = _
  rw [deref_ok (by omega)]
  exact deref_ok (by omega)

theorem freeS_ok {h : Heap} {s : SchemaN} (hc : ∀ a, oneSN s a ≤ h.live.count a) :
    ∃ h', freeS h s = .ok h' ∧ ∀ a, h'.live.count a + oneSN s a = h.live.count a := by
  cases s with
  | none => exact ⟨h, rfl, fun a => rfl⟩
  | some q =>
    obtain ⟨s, cs⟩ := q
    have h1 := hc s
    simp only [oneSN, one_self] at h1 hc
    obtain ⟨h', e, hh⟩ := free_ok (h := h) (p := cs) fun a => by have := hc a; omega
    have h4 := hh s
    obtain ⟨h'', e', hh'⟩ := free_some (h := h') (p := s) (by omega)
    refine ⟨h'', ?_, fun a => ?_⟩
    · show (deref h (some s) >>= fun _ => free h cs >>= fun h => free h (some s)) = _
      rw [deref_ok (by omega), e]
      exact e'
    · have := hh a
      have := hh' a
      simp only [oneSN]
      omega

/-- The blocks of an operator, without its inputs. -/
def OpPtrsN.cnt (o : OpPtrsN) (a : Nat) : Nat := one o.self a + oneOpt o.state a + oneSN o.schema a + oneOpt o.buf a

/-- The blocks of a tree of operators. -/
def OpNodeN.cnt : OpNodeN → Nat → Nat
  | .scan o _, a => o.cnt a
  | .select o i, a => o.cnt a + i.cnt a
  | .project o i, a => o.cnt a + i.cnt a
  | .aggregate o l _ i, a => o.cnt a + oneOpt l a + i.cnt a
  | .join o _ i j, a => o.cnt a + i.cnt a + j.cnt a

/-- The heap's blocks are those of the operators and those of the frame. -/
def OwnsN (h : Heap) (o : OpNodeN) (F : Nat → Nat) : Prop := ∀ a, h.live.count a = o.cnt a + F a

/-- Operators that have a state and, for aggregations, an input. -/
def OpNodeN.Opened : OpNodeN → Prop
  | .scan o _ => o.state.isSome
  | .select o i => o.state.isSome ∧ i.Opened
  | .project o i => o.state.isSome ∧ i.Opened
  | .aggregate o _ l i => l = true ∧ o.state.isSome ∧ i.Opened
  | .join o _ i j => o.state.isSome ∧ i.Opened ∧ j.Opened

/-- A schema with its columns. -/
def Whole (s : SchemaN) : Prop := ∃ p q, s = some (p, some q)

/-- Operators as created for a tree. -/
def OpNodeN.Made : OpNodeN → Tree → Prop
  | .scan o f, .scan f' => f = f' ∧ o.state.isSome ∧ Whole o.schema ∧ o.buf = none
  | .select o i, .select t => o.state.isSome ∧ o.schema = none ∧ o.buf = none ∧ i.Made t
  | .project o i, .project t => o.state.isSome ∧ o.schema = none ∧ o.buf = none ∧ i.Made t
  | .aggregate o l k i, .aggregate t =>
    k = true ∧ l = none ∧ o.state.isSome ∧ o.schema = none ∧ o.buf = none ∧ i.Made t
  | .join o k i j, .join k' t u => k = k' ∧ o.state.isSome ∧ o.schema = none ∧ o.buf = none ∧ i.Made t ∧ j.Made u
  | _, _ => False

/-- Every aggregation has its private buffer. -/
def OpNodeN.Primed : OpNodeN → Prop
  | .scan _ _ => True
  | .select _ i => i.Primed
  | .project _ i => i.Primed
  | .aggregate _ l _ i => l.isSome ∧ i.Primed
  | .join _ _ i j => i.Primed ∧ j.Primed

/-- Only the operators' own blocks are left. -/
def OpNodeN.Closed : OpNodeN → Prop
  | .scan o _ => o = ⟨o.self, none, none, none⟩
  | .select o i => o = ⟨o.self, none, none, none⟩ ∧ i.Closed
  | .project o i => o = ⟨o.self, none, none, none⟩ ∧ i.Closed
  | .aggregate o l _ i => o = ⟨o.self, none, none, none⟩ ∧ l = none ∧ i.Closed
  | .join o _ i j => o = ⟨o.self, none, none, none⟩ ∧ i.Closed ∧ j.Closed

theorem OpNodeN.ptrs_le (o : OpNodeN) (a : Nat) : o.ptrs.cnt a ≤ o.cnt a := by
  cases o <;> simp only [OpNodeN.ptrs, OpNodeN.cnt] <;> omega

theorem OpNodeN.Made.opened {o : OpNodeN} : ∀ {t : Tree}, o.Made t → o.Opened := by
  induction o with
  | scan p f => intro t h; cases t <;> first | exact h.elim | exact h.2.1
  | select p i ih => intro t h; cases t <;> first | exact h.elim | exact ⟨h.1, ih h.2.2.2⟩
  | project p i ih => intro t h; cases t <;> first | exact h.elim | exact ⟨h.1, ih h.2.2.2⟩
  | aggregate p l k i ih =>
    intro t h; cases t <;> first | exact h.elim | exact ⟨h.1, h.2.2.1, ih h.2.2.2.2.2⟩
  | join p k i j ihi ihj =>
    intro t h; cases t <;> first | exact h.elim | exact ⟨h.2.1, ihi h.2.2.2.2.1, ihj h.2.2.2.2.2⟩

theorem full_iff {o : OpPtrsN} (h : o.full = true) : Whole o.schema ∧ o.buf.isSome := by
  obtain ⟨self, state, schema, buf⟩ := o
  simp only [OpPtrsN.full, Bool.and_eq_true] at h
  refine ⟨?_, h.2⟩
  match schema, h.1 with
  | some (s, some cs), _ => exact ⟨s, cs, rfl⟩

theorem full_of {o : OpPtrsN} (h : Whole o.schema) (hb : o.buf.isSome = true) : o.full = true := by
  obtain ⟨p, q, e⟩ := h
  simp only [OpPtrsN.full, e, Option.any_some, Option.isSome_some, Bool.true_and, hb]

theorem ready_scan {p : OpPtrsN} {b : Nat} {f : Bool} (h : Whole p.schema) :
    (OpNodeN.scan { p with buf := some b } f).ready = true :=
  full_of (o := { p with buf := some b }) h rfl

theorem ready_full {o : OpNodeN} (h : o.ready = true) : Whole o.ptrs.schema ∧ o.ptrs.buf.isSome := by
  cases o <;> simp only [OpNodeN.ready, Bool.and_eq_true] at h
  · exact full_iff h
  · exact full_iff h.1
  · exact full_iff h.1
  · exact full_iff h.1
  · exact full_iff h.1.1

/-- Everything an operator points to is live. -/
theorem OpPtrsN.live {h : Heap} {p : OpPtrsN} (hc : ∀ a, p.cnt a ≤ h.live.count a) :
    deref h (some p.self) = .ok () ∧ (p.state.isSome → deref h p.state = .ok ()) ∧
    (p.buf.isSome → deref h p.buf = .ok ()) ∧ (Whole p.schema → derefS h p.schema = .ok ()) := by
  obtain ⟨self, state, schema, buf⟩ := p
  simp only [OpPtrsN.cnt] at hc ⊢
  refine ⟨?_, ?_, ?_, ?_⟩
  · have := hc self
    rw [one_self] at this
    exact deref_ok (by omega)
  · intro hs
    obtain ⟨s, rfl⟩ := Option.isSome_iff_exists.1 hs
    have := hc s
    simp only [oneOpt, one_self] at this
    exact deref_ok (by omega)
  · intro hs
    obtain ⟨s, rfl⟩ := Option.isSome_iff_exists.1 hs
    have := hc s
    simp only [oneOpt, one_self] at this
    exact deref_ok (by omega)
  · rintro ⟨s, cs, rfl⟩
    exact derefS_ok fun a => by have := hc a; omega

/-! ## `close` and `free` -/

theorem closeN_mem (o : OpNodeN) : ∀ (h : Heap) (F : Nat → Nat), o.Opened → OwnsN h o F →
    ∃ h' o', o.close h = .ok (h', o') ∧ OwnsN h' o' F ∧ o'.Closed := by
  induction o with
  | scan p f =>
    intro h F ho hc
    simp only [OwnsN, OpNodeN.cnt, OpPtrsN.cnt] at hc
    obtain ⟨l1, -⟩ := OpPtrsN.live (h := h) (p := p) fun a => by have := hc a; simp only [OpPtrsN.cnt]; bomega
    obtain ⟨h1, e1, c1⟩ := freeS_ok (h := h) (s := p.schema) fun a => by have := hc a; bomega
    obtain ⟨h2, e2, c2⟩ := free_ok (h := h1) (p := p.buf) fun a => by have := hc a; have := c1 a; bomega
    obtain ⟨h3, e3, c3⟩ := free_ok (h := h2) (p := p.state) fun a => by have := hc a; have := c1 a; have := c2 a; bomega
    refine ⟨h3, .scan ⟨p.self, none, none, none⟩ f, ?_, fun a => ?_, rfl⟩
    · simp only [OpNodeN.close, l1, e1, e2, e3, Res.ok_bind]
    · have := hc a; have := c1 a; have := c2 a; have := c3 a
      simp only [OpNodeN.cnt, OpPtrsN.cnt, oneOpt, oneSN]
      bomega
  | select p i ih =>
    intro h F ho hc
    simp only [OwnsN, OpNodeN.cnt, OpPtrsN.cnt] at hc
    obtain ⟨l1, -⟩ := OpPtrsN.live (h := h) (p := p) fun a => by have := hc a; simp only [OpPtrsN.cnt]; bomega
    obtain ⟨h0, i', e0, c0, hcl⟩ := ih h (fun a => p.cnt a + F a) ho.2 fun a => by
      have := hc a; simp only [OpPtrsN.cnt]; bomega
    simp only [OwnsN, OpPtrsN.cnt] at c0
    obtain ⟨h1, e1, c1⟩ := freeS_ok (h := h0) (s := p.schema) fun a => by have := c0 a; bomega
    obtain ⟨h2, e2, c2⟩ := free_ok (h := h1) (p := p.state) fun a => by have := c0 a; have := c1 a; bomega
    obtain ⟨h3, e3, c3⟩ := free_ok (h := h2) (p := p.buf) fun a => by have := c0 a; have := c1 a; have := c2 a; bomega
    refine ⟨h3, .select ⟨p.self, none, none, none⟩ i', ?_, fun a => ?_, ⟨rfl, hcl⟩⟩
    · simp only [OpNodeN.close, l1, e0, e1, e2, e3, Res.ok_bind]
    · have := c0 a; have := c1 a; have := c2 a; have := c3 a
      simp only [OpNodeN.cnt, OpPtrsN.cnt, oneOpt, oneSN]
      bomega
  | project p i ih =>
    intro h F ho hc
    simp only [OwnsN, OpNodeN.cnt, OpPtrsN.cnt] at hc
    obtain ⟨l1, -⟩ := OpPtrsN.live (h := h) (p := p) fun a => by have := hc a; simp only [OpPtrsN.cnt]; bomega
    obtain ⟨h0, i', e0, c0, hcl⟩ := ih h (fun a => p.cnt a + F a) ho.2 fun a => by
      have := hc a; simp only [OpPtrsN.cnt]; bomega
    simp only [OwnsN, OpPtrsN.cnt] at c0
    obtain ⟨h1, e1, c1⟩ := freeS_ok (h := h0) (s := p.schema) fun a => by have := c0 a; bomega
    obtain ⟨h2, e2, c2⟩ := free_ok (h := h1) (p := p.state) fun a => by have := c0 a; have := c1 a; bomega
    obtain ⟨h3, e3, c3⟩ := free_ok (h := h2) (p := p.buf) fun a => by have := c0 a; have := c1 a; have := c2 a; bomega
    refine ⟨h3, .project ⟨p.self, none, none, none⟩ i', ?_, fun a => ?_, ⟨rfl, hcl⟩⟩
    · simp only [OpNodeN.close, l1, e0, e1, e2, e3, Res.ok_bind]
    · have := c0 a; have := c1 a; have := c2 a; have := c3 a
      simp only [OpNodeN.cnt, OpPtrsN.cnt, oneOpt, oneSN]
      bomega
  | aggregate p l k i ih =>
    intro h F ho hc
    obtain ⟨rfl, hst, ho⟩ := ho
    simp only [OwnsN, OpNodeN.cnt, OpPtrsN.cnt] at hc
    obtain ⟨l1, -⟩ := OpPtrsN.live (h := h) (p := p) fun a => by have := hc a; simp only [OpPtrsN.cnt]; bomega
    obtain ⟨h0, i', e0, c0, hcl⟩ := ih h (fun a => p.cnt a + oneOpt l a + F a) ho fun a => by
      have := hc a; simp only [OpPtrsN.cnt]; bomega
    simp only [OwnsN, OpPtrsN.cnt] at c0
    obtain ⟨h1, e1, c1⟩ := freeS_ok (h := h0) (s := p.schema) fun a => by have := c0 a; bomega
    obtain ⟨q, hq⟩ := Option.isSome_iff_exists.1 hst
    have e' : deref h1 p.state = .ok () := by
      rw [hq]
      refine deref_ok ?_
      have h1 := c0 q
      have h2 := c1 q
      simp only [hq, oneOpt, one_self] at h1
      bomega
    obtain ⟨h2, e2, c2⟩ := free_ok (h := h1) (p := l) fun a => by have := c0 a; have := c1 a; bomega
    obtain ⟨h3, e3, c3⟩ := free_ok (h := h2) (p := p.state) fun a => by have := c0 a; have := c1 a; have := c2 a; bomega
    obtain ⟨h4, e4, c4⟩ := free_ok (h := h3) (p := p.buf) fun a => by
      have := c0 a; have := c1 a; have := c2 a; have := c3 a; bomega
    refine ⟨h4, .aggregate ⟨p.self, none, none, none⟩ none false i', ?_, fun a => ?_, ⟨rfl, rfl, hcl⟩⟩
    · simp only [OpNodeN.close, l1, e0, e1, e', e2, e3, e4, Res.ok_bind, Bool.not_true, Bool.false_eq_true, if_false]
    · have := c0 a; have := c1 a; have := c2 a; have := c3 a; have := c4 a
      simp only [OpNodeN.cnt, OpPtrsN.cnt, oneOpt, oneSN]
      bomega
  | join p k i j ihi ihj =>
    intro h F ho hc
    obtain ⟨hst, ho, hoj⟩ := ho
    simp only [OwnsN, OpNodeN.cnt, OpPtrsN.cnt] at hc
    obtain ⟨l1, l2, -⟩ := OpPtrsN.live (h := h) (p := p) fun a => by have := hc a; simp only [OpPtrsN.cnt]; bomega
    obtain ⟨h0, i', e0, c0, hcl⟩ := ihi h (fun a => p.cnt a + j.cnt a + F a) ho fun a => by
      have := hc a; simp only [OpPtrsN.cnt]; bomega
    obtain ⟨g0, j', f0, d0, gcl⟩ := ihj h0 (fun a => p.cnt a + i'.cnt a + F a) hoj fun a => by
      have := c0 a; simp only at this; bomega
    simp only [OwnsN, OpPtrsN.cnt] at d0
    obtain ⟨h1, e1, c1⟩ := freeS_ok (h := g0) (s := p.schema) fun a => by have := d0 a; bomega
    obtain ⟨h2, e2, c2⟩ := free_ok (h := h1) (p := p.state) fun a => by have := d0 a; have := c1 a; bomega
    obtain ⟨h3, e3, c3⟩ := free_ok (h := h2) (p := p.buf) fun a => by have := d0 a; have := c1 a; have := c2 a; bomega
    refine ⟨h3, .join ⟨p.self, none, none, none⟩ k i' j', ?_, fun a => ?_, ⟨rfl, hcl, gcl⟩⟩
    · simp only [OpNodeN.close, l1, l2 hst, e0, f0, e1, e2, e3, Res.ok_bind]
    · have := d0 a; have := c1 a; have := c2 a; have := c3 a
      simp only [OpNodeN.cnt, OpPtrsN.cnt, oneOpt, oneSN]
      bomega

theorem cnt_closed {p : OpPtrsN} (e : p = ⟨p.self, none, none, none⟩) (a : Nat) : p.cnt a = one p.self a := by
  rw [e]
  simp only [OpPtrsN.cnt, oneOpt, oneSN]
  omega

theorem freeEachN_mem (o : OpNodeN) : ∀ (h : Heap) (F : Nat → Nat), o.Closed → OwnsN h o F →
    ∃ h', o.freeEach h = .ok h' ∧ ∀ a, h'.live.count a = F a := by
  induction o with
  | scan p f =>
    intro h F hcl hc
    simp only [OwnsN, OpNodeN.cnt, cnt_closed hcl] at hc
    have h0 := hc p.self
    rw [one_self] at h0
    obtain ⟨h1, e1, c1⟩ := free_some (h := h) (p := p.self) (by bomega)
    exact ⟨h1, e1, fun a => by have := hc a; have := c1 a; bomega⟩
  | select p i ih =>
    intro h F hcl hc
    simp only [OwnsN, OpNodeN.cnt, cnt_closed hcl.1] at hc
    have h0 := hc p.self
    rw [one_self] at h0
    obtain ⟨h1, e1, c1⟩ := free_some (h := h) (p := p.self) (by bomega)
    obtain ⟨h2, e2, c2⟩ := ih h1 F hcl.2 fun a => by have := hc a; have := c1 a; bomega
    exact ⟨h2, by simp only [OpNodeN.freeEach, e1, Res.ok_bind, e2], c2⟩
  | project p i ih =>
    intro h F hcl hc
    simp only [OwnsN, OpNodeN.cnt, cnt_closed hcl.1] at hc
    have h0 := hc p.self
    rw [one_self] at h0
    obtain ⟨h1, e1, c1⟩ := free_some (h := h) (p := p.self) (by bomega)
    obtain ⟨h2, e2, c2⟩ := ih h1 F hcl.2 fun a => by have := hc a; have := c1 a; bomega
    exact ⟨h2, by simp only [OpNodeN.freeEach, e1, Res.ok_bind, e2], c2⟩
  | aggregate p l k i ih =>
    intro h F hcl hc
    obtain ⟨hp, rfl, hcl⟩ := hcl
    simp only [OwnsN, OpNodeN.cnt, cnt_closed hp, oneOpt] at hc
    have h0 := hc p.self
    rw [one_self] at h0
    obtain ⟨h1, e1, c1⟩ := free_some (h := h) (p := p.self) (by bomega)
    obtain ⟨h2, e2, c2⟩ := ih h1 F hcl fun a => by have := hc a; have := c1 a; bomega
    exact ⟨h2, by simp only [OpNodeN.freeEach, e1, Res.ok_bind, e2], c2⟩
  | join p k i j ihi ihj =>
    intro h F hcl hc
    simp only [OwnsN, OpNodeN.cnt, cnt_closed hcl.1] at hc
    have h0 := hc p.self
    rw [one_self] at h0
    obtain ⟨h1, e1, c1⟩ := free_some (h := h) (p := p.self) (by bomega)
    obtain ⟨h2, e2, c2⟩ := ihi h1 (fun a => j.cnt a + F a) hcl.2.1 fun a => by have := hc a; have := c1 a; bomega
    obtain ⟨h3, e3, c3⟩ := ihj h2 F hcl.2.2 c2
    exact ⟨h3, by simp only [OpNodeN.freeEach, e1, Res.ok_bind, e2, e3], c3⟩

theorem discard_mem (o : OpNodeN) (m : Mem) (F : Nat → Nat) (ho : o.Opened) (hc : OwnsN m.heap o F) :
    ∃ m', o.discard m = .ok m' ∧ m'.gives = m.gives ∧ m'.asked = m.asked ∧ ∀ a, m'.heap.live.count a = F a := by
  obtain ⟨h1, o1, e1, c1, k1⟩ := closeN_mem o m.heap F ho hc
  obtain ⟨h2, e2, c2⟩ := freeEachN_mem o1 h1 F k1 c1
  exact ⟨{ m with heap := h2 }, by simp only [OpNodeN.discard, e1, e2, Res.ok_bind], rfl, rfl, c2⟩

/-! ## Creating -/

/-- How the creation of a tree of operators ends: with all operators, or after a failing request with none, and at most one
block lost. -/
def BuiltN (m : Mem) (t : Tree) (r : Res (Mem × Option OpNodeN)) : Prop :=
  (∃ m' o, r = .ok (m', some o) ∧ m.Later m' ∧ o.Made t ∧ OwnsN m'.heap o (fun a => m.heap.live.count a)) ∨
  (∃ (m' : Mem) (L : List Nat), r = .ok (m', none) ∧ m.Later m' ∧ Miss m.gives m.asked m'.asked ∧ L.length ≤ 1 ∧
    ∀ a, m'.heap.live.count a = L.count a + m.heap.live.count a)

theorem createOver_cases (m : Mem) (node : OpPtrsN → OpNodeN) :
    (∃ m' op st, createOver m node = (m', some (node ⟨op, some st, none, none⟩)) ∧ m.Later m' ∧
      ∀ a, m'.heap.live.count a = one op a + one st a + m.heap.live.count a) ∨
    (∃ (m' : Mem) (L : List Nat), createOver m node = (m', none) ∧ m.Later m' ∧ Miss m.gives m.asked m'.asked ∧ L.length ≤ 1 ∧
      ∀ a, m'.heap.live.count a = L.count a + m.heap.live.count a) := by
  unfold createOver
  rcases alloc_cases m with ⟨m1, p, e, l, g, c⟩ | ⟨m1, e, l, g, c⟩
  · simp only [e]
    rcases alloc_cases m1 with ⟨m2, q, e', l', g', c'⟩ | ⟨m2, e', l', g', c'⟩
    · simp only [e']
      exact .inl ⟨_, _, _, rfl, l.trans l', fun a => by rw [c', c]; omega⟩
    · simp only [e']
      rw [l.gives] at g'
      refine .inr ⟨_, [p], rfl, l.trans l', g'.mono l.asked (Nat.le_refl _), Nat.le_refl _, fun a => ?_⟩
      rw [c', c, count_cons_one, List.count_nil]
      omega
  · simp only [e]
    exact .inr ⟨_, [], rfl, l, g, Nat.zero_le _, fun a => by rw [c, List.count_nil]; omega⟩

theorem createJoin_cases (m : Mem) (k : Bool) (i j : OpNodeN) :
    (∃ m' op st, createJoin m k i j = (m', some (.join ⟨op, some st, none, none⟩ k i j)) ∧ m.Later m' ∧
      ∀ a, m'.heap.live.count a = one op a + one st a + m.heap.live.count a) ∨
    (∃ (m' : Mem) (L : List Nat), createJoin m k i j = (m', none) ∧ m.Later m' ∧ Miss m.gives m.asked m'.asked ∧ L.length ≤ 1 ∧
      ∀ a, m'.heap.live.count a = L.count a + m.heap.live.count a) := by
  unfold createJoin
  rcases alloc_cases m with ⟨m1, p, e, l, g, c⟩ | ⟨m1, e, l, g, c⟩
  · simp only [e]
    rcases alloc_cases m1 with ⟨m2, q, e', l', g', c'⟩ | ⟨m2, e', l', g', c'⟩
    · simp only [e']
      exact .inl ⟨_, _, _, rfl, l.trans l', fun a => by rw [c', c]; omega⟩
    · simp only [e']
      rw [l.gives] at g'
      refine .inr ⟨_, [p], rfl, l.trans l', g'.mono l.asked (Nat.le_refl _), Nat.le_refl _, fun a => ?_⟩
      rw [c', c, count_cons_one, List.count_nil]
      omega
  · simp only [e]
    exact .inr ⟨_, [], rfl, l, g, Nat.zero_le _, fun a => by rw [c, List.count_nil]; omega⟩

theorem buildScan_ok (f : Bool) (m : Mem) : BuiltN m (.scan f) (buildN m (.scan f)) := by
  unfold buildN createScan
  rcases alloc_cases m with ⟨m1, op, e1, l1, g1, c1⟩ | ⟨m1, e1, l1, g1, c1⟩
  swap
  · simp only [e1]
    exact .inr ⟨_, [], rfl, l1, g1, Nat.zero_le _, fun a => by rw [c1, List.count_nil]; omega⟩
  simp only [e1]
  rcases alloc_cases m1 with ⟨m2, st, e2, l2, g2, c2⟩ | ⟨m2, e2, l2, g2, c2⟩
  swap
  · simp only [e2]
    rw [l1.gives] at g2
    refine .inr ⟨_, [op], rfl, l1.trans l2, g2.mono l1.asked (Nat.le_refl _), Nat.le_refl _, fun a => ?_⟩
    rw [c2, c1, count_cons_one, List.count_nil]
    omega
  simp only [e2]
  have l12 := l1.trans l2
  rcases alloc_cases m2 with ⟨m3, s, e3, l3, g3, c3⟩ | ⟨m3, e3, l3, g3, c3⟩
  swap
  · simp only [e3, OpNodeN.ptrs, Option.isNone_none, if_true]
    obtain ⟨m4, e4, g4, a4, c4⟩ := discard_mem (.scan ⟨op, some st, none, none⟩ f) m3 (fun a => m.heap.live.count a) rfl
      fun a => by
        rw [c3, c2, c1]
        simp only [OpNodeN.cnt, OpPtrsN.cnt, oneOpt, oneSN]
        omega
    rw [l12.gives] at g3
    refine .inr ⟨m4, [], by rw [e4]; rfl, ⟨g4.trans (l12.trans l3).gives, a4 ▸ (l12.trans l3).asked⟩,
      a4 ▸ g3.mono l12.asked (Nat.le_refl _), Nat.zero_le _, fun a => by rw [c4, List.count_nil]; omega⟩
  simp only [e3]
  have l13 := l12.trans l3
  rcases alloc_cases m3 with ⟨m4, cs, e4, l4, g4, c4⟩ | ⟨m4, e4, l4, g4, c4⟩
  · simp only [e4, OpNodeN.ptrs, Option.isNone_some, Bool.false_eq_true, if_false]
    refine .inl ⟨m4, _, rfl, l13.trans l4, ⟨rfl, rfl, ⟨_, _, rfl⟩, rfl⟩, fun a => ?_⟩
    rw [c4, c3, c2, c1]
    simp only [OpNodeN.cnt, OpPtrsN.cnt, oneOpt, oneSN]
    omega
  · simp only [e4, OpNodeN.ptrs, Option.isNone_none, if_true]
    obtain ⟨m5, e5, g5, a5, c5⟩ := discard_mem (.scan ⟨op, some st, none, none⟩ f) m4
      (fun a => [s].count a + m.heap.live.count a) rfl fun a => by
        rw [c4, c3, c2, c1]
        beta_reduce
        rw [count_cons_one, List.count_nil]
        simp only [OpNodeN.cnt, OpPtrsN.cnt, oneOpt, oneSN]
        omega
    rw [l13.gives] at g4
    exact .inr ⟨m5, [s], by rw [e5]; rfl, ⟨g5.trans (l13.trans l4).gives, a5 ▸ (l13.trans l4).asked⟩,
      a5 ▸ g4.mono l13.asked (Nat.le_refl _), Nat.le_refl _, c5⟩

/-- An operator over an input. -/
theorem buildOver_ok {t t' : Tree} {m : Mem} {r : Res (Mem × Option OpNodeN)} (hr : BuiltN m t r)
    (node : OpNodeN → OpPtrsN → OpNodeN)
    (hm : ∀ i op st, i.Made t → (node i ⟨op, some st, none, none⟩).Made t')
    (hcnt : ∀ i op st a, (node i ⟨op, some st, none, none⟩).cnt a = one op a + one st a + i.cnt a) :
    BuiltN m t' (r >>= fun x => match x with
      | (m, none) => .ok (m, none)
      | (m, some i) =>
        match createOver m (node i) with
        | (m, none) => i.discard m >>= fun m => .ok (m, none)
        | (m, some o) => .ok (m, some o)) := by
  rcases hr with ⟨m1, i, rfl, l1, hi, c1⟩ | ⟨m1, L, rfl, l1, g1, hL, c1⟩
  · simp only [Res.ok_bind]
    rcases createOver_cases m1 (node i) with ⟨m2, op, st, e2, l2, c2⟩ | ⟨m2, L, e2, l2, g2, hL, c2⟩
    · simp only [e2]
      refine .inl ⟨m2, _, rfl, l1.trans l2, hm _ _ _ hi, fun a => ?_⟩
      have := c1 a
      have := c2 a
      have := hcnt i op st a
      bomega
    · simp only [e2]
      obtain ⟨m3, e3, g3, a3, c3⟩ := discard_mem i m2 (fun a => L.count a + m.heap.live.count a) hi.opened fun a => by
        have := c1 a
        have := c2 a
        bomega
      rw [l1.gives] at g2
      exact .inr ⟨m3, L, by rw [e3]; rfl, ⟨g3.trans (l1.trans l2).gives, a3 ▸ (l1.trans l2).asked⟩,
        a3 ▸ g2.mono l1.asked (Nat.le_refl _), hL, c3⟩
  · exact .inr ⟨m1, L, rfl, l1, g1, hL, c1⟩

theorem buildN_ok (t : Tree) : ∀ (m : Mem), BuiltN m t (buildN m t) := by
  induction t with
  | scan f => exact buildScan_ok f
  | select t ih =>
    intro m
    exact buildOver_ok (ih m) (fun i p => .select p i) (fun i op st hi => ⟨rfl, rfl, rfl, hi⟩)
      fun i op st a => by simp only [OpNodeN.cnt, OpPtrsN.cnt, oneOpt, oneSN]; omega
  | project t ih =>
    intro m
    exact buildOver_ok (ih m) (fun i p => .project p i) (fun i op st hi => ⟨rfl, rfl, rfl, hi⟩)
      fun i op st a => by simp only [OpNodeN.cnt, OpPtrsN.cnt, oneOpt, oneSN]; omega
  | aggregate t ih =>
    intro m
    exact buildOver_ok (ih m) (fun i p => .aggregate p none true i) (fun i op st hi => ⟨rfl, rfl, rfl, rfl, rfl, hi⟩)
      fun i op st a => by simp only [OpNodeN.cnt, OpPtrsN.cnt, oneOpt, oneSN]; omega
  | join k t u iht ihu =>
    intro m
    unfold buildN
    rcases iht m with ⟨m1, i, e1, l1, hi, c1⟩ | ⟨m1, L, e1, l1, g1, hL, c1⟩
    swap
    · simp only [e1, Res.ok_bind]
      exact .inr ⟨m1, L, rfl, l1, g1, hL, c1⟩
    simp only [e1, Res.ok_bind]
    rcases ihu m1 with ⟨m2, j, e2, l2, hj, c2⟩ | ⟨m2, L, e2, l2, g2, hL, c2⟩
    swap
    · simp only [e2, Res.ok_bind]
      obtain ⟨m3, e3, g3, a3, c3⟩ := discard_mem i m2 (fun a => L.count a + m.heap.live.count a) hi.opened fun a => by
        have := c1 a
        have := c2 a
        bomega
      rw [l1.gives] at g2
      exact .inr ⟨m3, L, by rw [e3]; rfl, ⟨g3.trans (l1.trans l2).gives, a3 ▸ (l1.trans l2).asked⟩,
        a3 ▸ g2.mono l1.asked (Nat.le_refl _), hL, c3⟩
    simp only [e2, Res.ok_bind]
    have l12 := l1.trans l2
    rcases createJoin_cases m2 k i j with ⟨m3, op, st, e3, l3, c3⟩ | ⟨m3, L, e3, l3, g3, hL, c3⟩
    · simp only [e3]
      refine .inl ⟨m3, _, rfl, l12.trans l3, ⟨rfl, rfl, rfl, rfl, hi, hj⟩, fun a => ?_⟩
      have := c1 a
      have := c2 a
      have := c3 a
      simp only [OpNodeN.cnt, OpPtrsN.cnt, oneOpt, oneSN]
      bomega
    · simp only [e3]
      obtain ⟨m4, e4, g4, a4, c4⟩ := discard_mem i m3 (fun a => L.count a + j.cnt a + m.heap.live.count a) hi.opened
        fun a => by
          have := c1 a
          have := c2 a
          have := c3 a
          bomega
      obtain ⟨m5, e5, g5, a5, c5⟩ := discard_mem j m4 (fun a => L.count a + m.heap.live.count a) hj.opened fun a => by
        have := c4 a
        bomega
      rw [l12.gives] at g3
      have ha : m5.asked = m3.asked := a5.trans a4
      exact .inr ⟨m5, L, by simp only [e4, e5, Res.ok_bind], ⟨(g5.trans g4).trans (l12.trans l3).gives,
        ha ▸ (l12.trans l3).asked⟩, ha ▸ g3.mono l12.asked (Nat.le_refl _), hL, c5⟩

/-! ## `init` -/

/-- Either the tree is such that no `init` needs the schema of an input without having made a successful request of its own
since, and requests fail for good or the inputs are scans; or no request fails. -/
def FineN (t : Tree) (g : Nat → Bool) (a : Nat) : Prop :=
  t.layered = true ∧ (t.flat = true ∨ ∀ i j, a ≤ i → i ≤ j → g i = false → g j = false) ∨ ∀ i, a ≤ i → g i = true

/-- What holds after `init` of operators made for `t`. -/
def InitedN (m m' : Mem) (t : Tree) (o : OpNodeN) (a : Nat) (F : Nat → Nat) : Prop :=
  m.Later m' ∧ OwnsN m'.heap o F ∧ o.Opened ∧ (t.isScan → Whole o.ptrs.schema) ∧ (t.aggless → o.Primed) ∧
    (o.ready = true ∧ o.Primed ∨ Miss m.gives a m'.asked)

theorem FineN.inner {t t' : Tree} {g : Nat → Bool} {a : Nat} (h : FineN t g a) (h1 : t.layered = true → t'.layered = true)
    (h2 : t.flat = true → t'.flat = true) : FineN t' g a := by
  rcases h with ⟨hl, hf⟩ | h
  · exact .inl ⟨h1 hl, hf.imp h2 id⟩
  · exact .inr h

theorem scan_layered {t : Tree} (h : t.isScan = true) : t.layered = true ∧ t.flat = true := by
  cases t <;> first | exact ⟨rfl, rfl⟩ | cases h

/-- A successful request after a failing one. -/
theorem FineN.whole {t t' : Tree} {g : Nat → Bool} {a b : Nat} {P : Prop} (h : FineN t g a)
    (hf : t.flat = true → P) (hp : P ∨ Miss g a b) (hb : g b = true) : P := by
  rcases hp with hp | ⟨i, h1, h2, h3⟩
  · exact hp
  rcases h with ⟨hl, hf' | hm⟩ | h
  · exact hf hf'
  · rw [hm i b h1 (by omega) h3] at hb
    cases hb
  · rw [h i h1] at h3
    cases h3

theorem initN_mem (o : OpNodeN) : ∀ (t : Tree) (m : Mem) (F : Nat → Nat) (a : Nat), o.Made t → t.valid → OwnsN m.heap o F →
    a ≤ m.asked → FineN t m.gives a → ∃ m' o', o.init m = .ok (m', o') ∧ InitedN m m' t o' a F := by
  induction o with
  | scan p f =>
    intro t m F a ho hv hc ha hg
    cases t <;> try exact ho.elim
    obtain ⟨rfl, hst, hsc, hb⟩ := ho
    simp only [Tree.valid] at hv
    subst hv
    obtain ⟨l1, l2, l3, l4⟩ := OpPtrsN.live (h := m.heap) (p := p) fun a => by
      have := hc a; simp only [OpNodeN.cnt] at this; bomega
    have hn : p.schema.isNone = false := by obtain ⟨x, y, e⟩ := hsc; rw [e]; rfl
    rcases alloc_cases m with ⟨m1, b, e, l, g, c⟩ | ⟨m1, e, l, g, c⟩
    · refine ⟨m1, .scan { p with buf := some b } true, ?_, l, fun a => ?_, hst, fun _ => hsc, fun _ => trivial,
        .inl ⟨ready_scan hsc, trivial⟩⟩
      · simp only [OpNodeN.init, l1, l2 hst, l4 hsc, hn, Res.ok_bind, Bool.not_true, Bool.false_eq_true, if_false,
          Mem.buffer, hb, e]
      · have h1 := hc a
        have h2 := c a
        simp only [OpNodeN.cnt, OpPtrsN.cnt, hb, oneOpt] at h1 ⊢
        bomega
    · refine ⟨m1, .scan { p with buf := none } true, ?_, l, fun a => ?_, hst, fun _ => hsc, fun _ => trivial,
        .inr (g.mono ha (Nat.le_refl _))⟩
      · simp only [OpNodeN.init, l1, l2 hst, l4 hsc, hn, Res.ok_bind, Bool.not_true, Bool.false_eq_true, if_false,
          Mem.buffer, hb, e]
      · have h1 := hc a
        have h2 := c a
        simp only [OpNodeN.cnt, OpPtrsN.cnt, hb, oneOpt] at h1 ⊢
        bomega
  | select p i ih =>
    intro t m F a ho hv hc ha hg
    cases t <;> try exact ho.elim
    rename_i t
    obtain ⟨hst, hps, hpb, ho⟩ := ho
    simp only [Tree.valid] at hv
    rcases hg with ⟨hl, -⟩ | hg
    · cases hl
    obtain ⟨l1, l2, l3, l4⟩ := OpPtrsN.live (h := m.heap) (p := p) fun a => by
      have := hc a; simp only [OpNodeN.cnt] at this; bomega
    obtain ⟨m1, i', e1, k1, c1, o1, -, r1, w1⟩ := ih t m (fun a => p.cnt a + F a) a ho hv (fun a => by
      have := hc a; simp only [OpNodeN.cnt] at this; bomega) ha (.inr hg)
    have hall : ∀ x b : Nat, a ≤ x → ¬ Miss m.gives x b := by
      rintro x b hx ⟨i, h1, -, h3⟩
      rw [hg i (by omega)] at h3
      cases h3
    obtain ⟨wi, ri⟩ : i'.ready = true ∧ i'.Primed := w1.resolve_right (hall a _ (Nat.le_refl _))
    obtain ⟨s1, s2, hs⟩ := (ready_full wi).1
    have hl1 := k1.asked
    rcases alloc_cases m1 with ⟨m2, c, e2, k2, g2, c2⟩ | ⟨m2, e2, k2, g2, c2⟩
    swap
    · rw [k1.gives] at g2
      exact absurd g2 (hall _ _ (by omega))
    have hl2 := k2.asked
    rcases alloc_cases m2 with ⟨m3, cs, e3, k3, g3, c3⟩ | ⟨m3, e3, k3, g3, c3⟩
    swap
    · rw [(k1.trans k2).gives] at g3
      exact absurd g3 (hall _ _ (by omega))
    have hl3 := k3.asked
    rcases alloc_cases m3 with ⟨m4, b, e4, k4, g4, c4⟩ | ⟨m4, e4, k4, g4, c4⟩
    swap
    · rw [((k1.trans k2).trans k3).gives] at g4
      exact absurd g4 (hall _ _ (by omega))
    simp only [OwnsN, OpPtrsN.cnt, hps, hpb, oneSN, oneOpt] at c1
    obtain ⟨n1, -⟩ := OpPtrsN.live (h := m1.heap) (p := i'.ptrs) fun a => by
      have := c1 a; have := i'.ptrs_le a; bomega
    obtain ⟨-, -, -, n4⟩ := OpPtrsN.live (h := m3.heap) (p := i'.ptrs) fun a => by
      have := c1 a; have := c2 a; have := c3 a; have := i'.ptrs_le a; bomega
    have n5 : derefN m2.heap i'.ptrs.schema = .ok () := by
      rw [hs]
      refine deref_ok ?_
      have h1 := c1 s1; have h2 := c2 s1; have h3 := i'.ptrs_le s1
      simp only [OpPtrsN.cnt, hs, oneSN, one_self] at h3
      bomega
    have n6 : derefS m3.heap (some (c, some cs)) = .ok () := derefS_ok fun a => by
      have h2 := c2 a; have h3 := c3 a
      simp only [oneSN, oneOpt]
      bomega
    refine ⟨m4, .select { p with schema := some (c, some cs), buf := some b } i', ?_, ((k1.trans k2).trans k3).trans k4,
      fun x => ?_, ⟨hst, o1⟩, (by intro h; cases h), r1,
      .inl ⟨by simp only [OpNodeN.ready, OpPtrsN.full, Option.any_some, Option.isSome_some, wi, Bool.and_self], ri⟩⟩
    · simp only [OpNodeN.init, l1, e1, hps, hpb, Option.isNone_none, if_true, n1, copySchemaN, e2, n5, e3, n4 ⟨_, _, hs⟩,
        Mem.buffer, n6, e4, Res.ok_bind]
    · have h1 := c1 x; have h2 := c2 x; have h3 := c3 x; have h4 := c4 x
      simp only [OpNodeN.cnt, OpPtrsN.cnt, oneOpt, oneSN] at h1 ⊢
      bomega
  | project p i ih =>
    intro t m F a ho hv hc ha hg
    cases t <;> try exact ho.elim
    rename_i t
    obtain ⟨hst, hps, hpb, ho⟩ := ho
    simp only [Tree.valid] at hv
    obtain ⟨l1, l2, l3, l4⟩ := OpPtrsN.live (h := m.heap) (p := p) fun a => by
      have := hc a; simp only [OpNodeN.cnt] at this; bomega
    obtain ⟨m1, i', e1, k1, c1, o1, s1, r1, w1⟩ := ih t m (fun a => p.cnt a + F a) a ho hv (fun a => by
      have := hc a; simp only [OpNodeN.cnt] at this; bomega) ha (hg.inner id fun h => (scan_layered h).2)
    obtain ⟨-, n2, -, -⟩ := OpPtrsN.live (h := m1.heap) (p := p) fun a => by
      have := c1 a; bomega
    have hl1 := k1.asked
    obtain ⟨n1, -⟩ := OpPtrsN.live (h := m1.heap) (p := i'.ptrs) fun a => by
      have := c1 a; have := i'.ptrs_le a; bomega
    simp only [OwnsN, OpPtrsN.cnt, hps, hpb, oneSN, oneOpt] at c1
    rcases newSchemaN_cases m1 with ⟨m2, s, cs, e2, k2, g2, c2⟩ | ⟨m2, s, e2, k2, g2, c2⟩
    swap
    · rw [k1.gives] at g2
      refine ⟨m2, .project { p with schema := s } i', ?_, k1.trans k2, fun x => ?_, ⟨hst, o1⟩, (by intro h; cases h), r1,
        .inr (g2.mono (by omega) (Nat.le_refl _))⟩
      · simp only [OpNodeN.init, l1, e1, n2 hst, n1, hps, Option.isNone_none, if_true, e2, Res.ok_bind, Bool.not_false]
      · have h1 := c1 x; have h2 := c2 x
        simp only [OpNodeN.cnt, OpPtrsN.cnt, hpb, oneOpt] at h1 ⊢
        bomega
    have wi : Whole i'.ptrs.schema := by
      rw [k1.gives] at g2
      exact hg.whole (t' := t) s1 (w1.imp (fun w => (ready_full w.1).1) id) g2
    obtain ⟨-, -, -, n4⟩ := OpPtrsN.live (h := m2.heap) (p := i'.ptrs) fun a => by
      have := c1 a; have := c2 a; have := i'.ptrs_le a; bomega
    have n6 : derefS m2.heap (some (s, some cs)) = .ok () := derefS_ok fun a => by
      have h2 := c2 a
      bomega
    have hl2 := k2.asked
    rcases alloc_cases m2 with ⟨m3, b, e3, k3, g3, c3⟩ | ⟨m3, e3, k3, g3, c3⟩
    · refine ⟨m3, .project { p with schema := some (s, some cs), buf := some b } i', ?_, (k1.trans k2).trans k3,
        fun x => ?_, ⟨hst, o1⟩, (by intro h; cases h), r1, ?_⟩
      · simp only [OpNodeN.init, l1, e1, n2 hst, n1, hps, hpb, Option.isNone_none, if_true, e2, n4 wi, Mem.buffer, n6, e3,
          Res.ok_bind, Bool.not_true, Bool.false_eq_true, if_false]
      · have h1 := c1 x; have h2 := c2 x; have h3 := c3 x
        simp only [OpNodeN.cnt, OpPtrsN.cnt, oneOpt] at h1 ⊢
        bomega
      · have := k3.asked
        exact w1.imp (fun w => ⟨
          by simp only [OpNodeN.ready, OpPtrsN.full, Option.any_some, Option.isSome_some, w.1, Bool.and_self],
          w.2⟩)
          fun w => w.mono (Nat.le_refl _) (by omega)
    · have := k3.asked
      refine ⟨m3, .project { p with schema := some (s, some cs), buf := none } i', ?_, (k1.trans k2).trans k3,
        fun x => ?_, ⟨hst, o1⟩, (by intro h; cases h), r1, ?_⟩
      · simp only [OpNodeN.init, l1, e1, n2 hst, n1, hps, hpb, Option.isNone_none, if_true, e2, n4 wi, Mem.buffer, n6, e3,
          Res.ok_bind, Bool.not_true, Bool.false_eq_true, if_false]
      · have h1 := c1 x; have h2 := c2 x; have h3 := c3 x
        simp only [OpNodeN.cnt, OpPtrsN.cnt, oneOpt] at h1 ⊢
        bomega
      · rw [(k1.trans k2).gives] at g3
        exact .inr (g3.mono (by omega) (Nat.le_refl _))
  | aggregate p l k i ih =>
    intro t m F a ho hv hc ha hg
    cases t <;> try exact ho.elim
    rename_i t
    obtain ⟨rfl, rfl, hst, hps, hpb, ho⟩ := ho
    simp only [Tree.valid] at hv
    obtain ⟨l1, l2, l3, l4⟩ := OpPtrsN.live (h := m.heap) (p := p) fun a => by
      have := hc a; simp only [OpNodeN.cnt] at this; bomega
    obtain ⟨m1, i', e1, k1, c1, o1, s1, r1, w1⟩ := ih t m (fun a => p.cnt a + F a) a ho hv (fun a => by
      have := hc a; simp only [OpNodeN.cnt, oneOpt] at this; bomega) ha (hg.inner id fun h => (scan_layered h).2)
    obtain ⟨-, n2, -, -⟩ := OpPtrsN.live (h := m1.heap) (p := p) fun a => by
      have := c1 a; bomega
    have hl1 := k1.asked
    simp only [OwnsN, OpPtrsN.cnt, hps, hpb, oneSN, oneOpt] at c1
    rcases newSchemaN_cases m1 with ⟨m2, s, cs, e2, k2, g2, c2⟩ | ⟨m2, s, e2, k2, g2, c2⟩
    swap
    · rw [k1.gives] at g2
      refine ⟨m2, .aggregate { p with schema := s } none true i', ?_, k1.trans k2, fun x => ?_, ⟨rfl, hst, o1⟩,
        (by intro h; cases h), (by intro h; cases h), .inr (g2.mono (by omega) (Nat.le_refl _))⟩
      · simp only [OpNodeN.init, l1, e1, n2 hst, hps, Option.isNone_none, if_true, e2, Res.ok_bind, Bool.not_false,
          Bool.not_true, Bool.false_eq_true, if_false]
      · have h1 := c1 x; have h2 := c2 x
        simp only [OpNodeN.cnt, OpPtrsN.cnt, hpb, oneOpt] at h1 ⊢
        bomega
    have wi : Whole i'.ptrs.schema := by
      rw [k1.gives] at g2
      exact hg.whole (t' := t) s1 (w1.imp (fun w => (ready_full w.1).1) id) g2
    obtain ⟨n1, -, -, n4⟩ := OpPtrsN.live (h := m2.heap) (p := i'.ptrs) fun a => by
      have := c1 a; have := c2 a; have := i'.ptrs_le a; bomega
    have n6 : derefS m2.heap (some (s, some cs)) = .ok () := derefS_ok fun a => by
      have h2 := c2 a
      bomega
    have hl2 := k2.asked
    rcases alloc_cases m2 with ⟨m3, b, e3, k3, g3, c3⟩ | ⟨m3, e3, k3, g3, c3⟩
    swap
    · rw [(k1.trans k2).gives] at g3
      refine ⟨m3, .aggregate { p with schema := some (s, some cs), buf := none } none true i', ?_, (k1.trans k2).trans k3,
        fun x => ?_, ⟨rfl, hst, o1⟩, (by intro h; cases h), (by intro h; cases h), .inr (g3.mono (by omega) (Nat.le_refl _))⟩
      · simp only [OpNodeN.init, l1, e1, n2 hst, n1, hps, hpb, Option.isNone_none, if_true, e2, n4 wi, Mem.buffer, n6, e3,
          Res.ok_bind, Bool.not_true, Bool.false_eq_true, if_false]
      · have h1 := c1 x; have h2 := c2 x; have h3 := c3 x
        simp only [OpNodeN.cnt, OpPtrsN.cnt, oneOpt] at h1 ⊢
        bomega
    have hl3 := k3.asked
    rcases alloc_cases m3 with ⟨m4, q, e4, k4, g4, c4⟩ | ⟨m4, e4, k4, g4, c4⟩
    · have hl4 := k4.asked
      refine ⟨m4, .aggregate { p with schema := some (s, some cs), buf := some b } (some q) true i', ?_,
        ((k1.trans k2).trans k3).trans k4, fun x => ?_, ⟨rfl, hst, o1⟩, (by intro h; cases h), (by intro h; cases h), ?_⟩
      · simp only [OpNodeN.init, l1, e1, n2 hst, n1, hps, hpb, Option.isNone_none, if_true, e2, n4 wi, Mem.buffer, n6, e3,
          Res.ok_bind, Bool.not_true, Bool.false_eq_true, if_false, Option.isNone_some, e4]
      · have h1 := c1 x; have h2 := c2 x; have h3 := c3 x; have h4 := c4 x
        simp only [OpNodeN.cnt, OpPtrsN.cnt, oneOpt] at h1 ⊢
        bomega
      · exact w1.imp (fun w => ⟨
          by simp only [OpNodeN.ready, OpPtrsN.full, Option.any_some, Option.isSome_some, w.1, Bool.and_self],
          rfl, w.2⟩)
          fun w => w.mono (Nat.le_refl _) (by omega)
    · have hl4 := k4.asked
      rw [((k1.trans k2).trans k3).gives] at g4
      refine ⟨m4, .aggregate { p with schema := some (s, some cs), buf := some b } none true i', ?_,
        ((k1.trans k2).trans k3).trans k4, fun x => ?_, ⟨rfl, hst, o1⟩, (by intro h; cases h), (by intro h; cases h),
        .inr (g4.mono (by omega) (Nat.le_refl _))⟩
      · simp only [OpNodeN.init, l1, e1, n2 hst, n1, hps, hpb, Option.isNone_none, if_true, e2, n4 wi, Mem.buffer, n6, e3,
          Res.ok_bind, Bool.not_true, Bool.false_eq_true, if_false, Option.isNone_some, e4]
      · have h1 := c1 x; have h2 := c2 x; have h3 := c3 x; have h4 := c4 x
        simp only [OpNodeN.cnt, OpPtrsN.cnt, oneOpt] at h1 ⊢
        bomega
  | join p k i j ihi ihj =>
    intro t m F a ho hv hc ha hg
    cases t <;> try exact ho.elim
    rename_i kk t u
    obtain ⟨rfl, hst, hps, hpb, ho, hoj⟩ := ho
    simp only [Tree.valid, Bool.and_eq_true] at hv
    obtain ⟨⟨rfl, hv⟩, hvj⟩ := hv
    have hsc : (t.isScan = true ∧ u.isScan = true) ∨ ∀ i, a ≤ i → m.gives i = true := by
      rcases hg with ⟨h, -⟩ | h
      · simp only [Tree.layered, Bool.and_eq_true] at h
        exact .inl h
      · exact .inr h
    obtain ⟨l1, l2, l3, l4⟩ := OpPtrsN.live (h := m.heap) (p := p) fun a => by
      have := hc a; simp only [OpNodeN.cnt] at this; bomega
    have fit : FineN t m.gives a := hsc.imp (fun h => ⟨(scan_layered h.1).1, .inl (scan_layered h.1).2⟩) id
    have fiu : FineN u m.gives a := hsc.imp (fun h => ⟨(scan_layered h.2).1, .inl (scan_layered h.2).2⟩) id
    obtain ⟨m1, i', e1, k1, c1, o1, s1, r1, w1⟩ := ihi t m (fun a => p.cnt a + j.cnt a + F a) a ho hv (fun a => by
      have := hc a; simp only [OpNodeN.cnt] at this; bomega) ha fit
    have hl1 := k1.asked
    obtain ⟨m2, j', e2, k2, c2, o2, s2, r2, w2⟩ := ihj u m1 (fun a => p.cnt a + i'.cnt a + F a) a hoj hvj (fun a => by
      have := c1 a; bomega) (by omega) (by rw [k1.gives]; exact fiu)
    have hl2 := k2.asked
    rw [k1.gives] at w2
    have wi : Whole i'.ptrs.schema := by
      rcases hsc with h | h
      · exact s1 h.1
      · rcases w1 with w | ⟨x, h1, -, h3⟩
        · exact (ready_full w.1).1
        · rw [h x h1] at h3
          cases h3
    have wj : Whole j'.ptrs.schema := by
      rcases hsc with h | h
      · exact s2 h.2
      · rcases w2 with w | ⟨x, h1, -, h3⟩
        · exact (ready_full w.1).1
        · rw [h x h1] at h3
          cases h3
    obtain ⟨n1, -, -, n4⟩ := OpPtrsN.live (h := m2.heap) (p := i'.ptrs) fun a => by
      have := c2 a; have := i'.ptrs_le a; bomega
    obtain ⟨q1, -, -, q4⟩ := OpPtrsN.live (h := m2.heap) (p := j'.ptrs) fun a => by
      have := c2 a; have := j'.ptrs_le a; bomega
    have rr : (Tree.join true t u).aggless = true → i'.Primed ∧ j'.Primed := by
      intro h
      simp only [Tree.aggless, Bool.and_eq_true] at h
      exact ⟨r1 h.1, r2 h.2⟩
    simp only [OwnsN, OpPtrsN.cnt, hps, hpb, oneSN, oneOpt] at c2
    have k12 := k1.trans k2
    rcases newSchemaN_cases m2 with ⟨m3, s, cs, e3, k3, g3, c3⟩ | ⟨m3, s, e3, k3, g3, c3⟩
    swap
    · rw [k12.gives] at g3
      refine ⟨m3, .join { p with schema := s } true i' j', ?_, k12.trans k3, fun x => ?_, ⟨hst, o1, o2⟩,
        (by intro h; cases h), rr, .inr (g3.mono (by omega) (Nat.le_refl _))⟩
      · simp only [OpNodeN.init, l1, l2 hst, e1, e2, n1, q1, n4 wi, q4 wj, hps, Option.isNone_none, if_true, e3, Res.ok_bind,
          Bool.not_false, Bool.not_true, Bool.false_eq_true, if_false]
      · have h2 := c2 x; have h3 := c3 x
        simp only [OpNodeN.cnt, OpPtrsN.cnt, hpb, oneOpt] at h2 ⊢
        bomega
    have hl3 := k3.asked
    have n6 : derefS m3.heap (some (s, some cs)) = .ok () := derefS_ok fun a => by
      have h2 := c3 a
      bomega
    have hw : (i'.ready = true ∧ i'.Primed) ∧ (j'.ready = true ∧ j'.Primed) ∨ Miss m.gives a m3.asked := by
      rcases w1 with w1 | w1
      · rcases w2 with w2 | w2
        · exact .inl ⟨w1, w2⟩
        · exact .inr (w2.mono (Nat.le_refl _) (by omega))
      · exact .inr (w1.mono (Nat.le_refl _) (by omega))
    rcases alloc_cases m3 with ⟨m4, b, e4, k4, g4, c4⟩ | ⟨m4, e4, k4, g4, c4⟩
    · have hl4 := k4.asked
      refine ⟨m4, .join { p with schema := some (s, some cs), buf := some b } true i' j', ?_, (k12.trans k3).trans k4,
        fun x => ?_, ⟨hst, o1, o2⟩, (by intro h; cases h), rr, ?_⟩
      · simp only [OpNodeN.init, l1, l2 hst, e1, e2, n1, q1, n4 wi, q4 wj, hps, Option.isNone_none, if_true, e3, Res.ok_bind,
          Bool.not_true, Bool.false_eq_true, if_false, n6, e4]
      · have h2 := c2 x; have h3 := c3 x; have h4 := c4 x
        simp only [OpNodeN.cnt, OpPtrsN.cnt, oneOpt] at h2 ⊢
        bomega
      · exact hw.imp (fun w => ⟨
          by simp only [OpNodeN.ready, OpPtrsN.full, Option.any_some, Option.isSome_some, w.1.1, w.2.1, Bool.and_self],
          w.1.2, w.2.2⟩) fun w => w.mono (Nat.le_refl _) (by omega)
    · have hl4 := k4.asked
      refine ⟨m4, .join { p with schema := some (s, some cs), buf := none } true i' j', ?_, (k12.trans k3).trans k4,
        fun x => ?_, ⟨hst, o1, o2⟩, (by intro h; cases h), rr, ?_⟩
      · simp only [OpNodeN.init, l1, l2 hst, e1, e2, n1, q1, n4 wi, q4 wj, hps, Option.isNone_none, if_true, e3, Res.ok_bind,
          Bool.not_true, Bool.false_eq_true, if_false, n6, e4]
      · have h2 := c2 x; have h3 := c3 x; have h4 := c4 x
        simp only [OpNodeN.cnt, OpPtrsN.cnt, oneOpt] at h2 ⊢
        bomega
      · rw [(k12.trans k3).gives] at g4
        exact .inr (g4.mono (by omega) (Nat.le_refl _))

/-! ## Running -/

theorem nextN_mem (o : OpNodeN) : ∀ (h : Heap), o.Opened → o.ready = true → o.Primed → (∀ a, o.cnt a ≤ h.live.count a) →
    o.next h = .ok () := by
  induction o with
  | scan p f =>
    intro h ho hr hp hc
    obtain ⟨l1, l2, l3, l4⟩ := OpPtrsN.live (h := h) (p := p) hc
    obtain ⟨w, b⟩ := full_iff hr
    have hn : p.schema.isNone = false := by obtain ⟨x, y, e⟩ := w; rw [e]; rfl
    simp only [OpNodeN.next, l1, l2 ho, l3 b, hn, Res.ok_bind, Bool.false_eq_true, if_false]
  | select p i ih =>
    intro h ho hr hp hc
    obtain ⟨l1, l2, l3, l4⟩ := OpPtrsN.live (h := h) (p := p) fun a => by have := hc a; simp only [OpNodeN.cnt] at this; omega
    have hci : ∀ a, i.cnt a ≤ h.live.count a := fun a => by have := hc a; simp only [OpNodeN.cnt] at this; omega
    obtain ⟨m1, m2, m3, m4⟩ := OpPtrsN.live (h := h) (p := i.ptrs) fun a => (i.ptrs_le a).trans (hci a)
    simp only [OpNodeN.ready, Bool.and_eq_true] at hr
    obtain ⟨w, b⟩ := full_iff hr.1
    obtain ⟨w', b'⟩ := ready_full hr.2
    simp only [OpNodeN.next, l1, l2 ho.1, l3 b, l4 w, m1, m3 b', m4 w', ih h ho.2 hr.2 hp hci, Res.ok_bind]
  | project p i ih =>
    intro h ho hr hp hc
    obtain ⟨l1, l2, l3, l4⟩ := OpPtrsN.live (h := h) (p := p) fun a => by have := hc a; simp only [OpNodeN.cnt] at this; omega
    have hci : ∀ a, i.cnt a ≤ h.live.count a := fun a => by have := hc a; simp only [OpNodeN.cnt] at this; omega
    obtain ⟨m1, m2, m3, m4⟩ := OpPtrsN.live (h := h) (p := i.ptrs) fun a => (i.ptrs_le a).trans (hci a)
    simp only [OpNodeN.ready, Bool.and_eq_true] at hr
    obtain ⟨w, b⟩ := full_iff hr.1
    obtain ⟨w', b'⟩ := ready_full hr.2
    simp only [OpNodeN.next, l1, l2 ho.1, l3 b, m1, m3 b', m4 w', ih h ho.2 hr.2 hp hci, Res.ok_bind]
  | aggregate p l k i ih =>
    intro h ho hr hp hc
    obtain ⟨l1, l2, l3, l4⟩ := OpPtrsN.live (h := h) (p := p) fun a => by have := hc a; simp only [OpNodeN.cnt] at this; omega
    have hci : ∀ a, i.cnt a ≤ h.live.count a := fun a => by have := hc a; simp only [OpNodeN.cnt] at this; omega
    obtain ⟨m1, m2, m3, m4⟩ := OpPtrsN.live (h := h) (p := i.ptrs) fun a => (i.ptrs_le a).trans (hci a)
    obtain ⟨q, rfl⟩ := Option.isSome_iff_exists.1 hp.1
    have hl : deref h (some q) = .ok () := deref_ok (by
      have := hc q
      simp only [OpNodeN.cnt, oneOpt, one_self] at this
      omega)
    obtain ⟨rfl, hs, ho⟩ := ho
    simp only [OpNodeN.ready, Bool.and_eq_true] at hr
    obtain ⟨w, b⟩ := full_iff hr.1
    obtain ⟨w', b'⟩ := ready_full hr.2
    simp only [OpNodeN.next, l1, l2 hs, l3 b, l4 w, m1, m3 b', m4 w', hl, ih h ho hr.2 hp.2 hci, Res.ok_bind, Bool.not_true,
      Bool.false_eq_true, if_false]
  | join p k i j ihi ihj =>
    intro h ho hr hp hc
    obtain ⟨l1, l2, l3, l4⟩ := OpPtrsN.live (h := h) (p := p) fun a => by have := hc a; simp only [OpNodeN.cnt] at this; omega
    have hci : ∀ a, i.cnt a ≤ h.live.count a := fun a => by have := hc a; simp only [OpNodeN.cnt] at this; omega
    have hcj : ∀ a, j.cnt a ≤ h.live.count a := fun a => by have := hc a; simp only [OpNodeN.cnt] at this; omega
    obtain ⟨m1, m2, m3, m4⟩ := OpPtrsN.live (h := h) (p := i.ptrs) fun a => (i.ptrs_le a).trans (hci a)
    obtain ⟨n1, n2, n3, n4⟩ := OpPtrsN.live (h := h) (p := j.ptrs) fun a => (j.ptrs_le a).trans (hcj a)
    simp only [OpNodeN.ready, Bool.and_eq_true] at hr
    obtain ⟨w, b⟩ := full_iff hr.1.1
    obtain ⟨w', b'⟩ := ready_full hr.1.2
    obtain ⟨w'', b''⟩ := ready_full hr.2
    simp only [OpNodeN.next, l1, l2 ho.1, l3 b, m1, m3 b', m4 w', n1, n3 b'', n4 w'',
      ihi h ho.2.1 hr.1.2 hp.1 hci, ihj h ho.2.2 hr.2 hp.2 hcj, Res.ok_bind]

theorem execsN_mem {o : OpNodeN} {h : Heap} (hn : o.next h = .ok ()) : ∀ n, o.execs h n = .ok () := by
  intro n
  induction n with
  | zero => rfl
  | succ n ih => simp only [OpNodeN.execs, hn, ih, Res.ok_bind]

/-- A session in which `init` is fine: no undefined behaviour, and at most one block is lost. -/
theorem oomSession_mem (m : Mem) (t : Tree) (n : Nat) (hv : t.valid) {m1 : Mem} {r : Option OpNodeN}
    (hb : buildN m t = .ok (m1, r)) (hf : FineN t m1.gives m1.asked)
    (hn : n = 0 ∨ t.aggless = true ∨ ∀ i, m1.asked ≤ i → m1.gives i = true) :
    ∃ (m' : Mem) (leak : List Nat), oomSession m t n = .ok m' ∧ m'.heap.live.Perm (leak ++ m.heap.live) ∧ leak.length ≤ 1 ∧
      ((∀ i, m.asked ≤ i → m.gives i = true) → leak = []) := by
  rcases buildN_ok t m with ⟨m1', o, e1, l1, ho, c1⟩ | ⟨m1', L, e1, l1, g1, hL, c1⟩
  · rw [hb] at e1
    cases e1
    obtain ⟨m2, o2, e2, k2, c2, o2', -, r2, w2⟩ := initN_mem o t m1 _ m1.asked ho hv c1 (Nat.le_refl _) hf
    obtain ⟨m3, e3, -, -, c3⟩ := discard_mem o2 m2 _ o2' c2
    refine ⟨m3, [], ?_, List.perm_iff_count.2 c3, Nat.zero_le _, fun _ => rfl⟩
    unfold oomSession
    simp only [hb, e2, Res.ok_bind]
    by_cases hr : o2.ready = true
    · rw [if_pos hr]
      have hx : o2.execs m2.heap n = .ok () := by
        rcases hn with rfl | hn
        · rfl
        have hp : o2.Primed := by
          rcases hn with hn | hn
          · exact r2 hn
          · rcases w2 with w | ⟨i, h1, -, h3⟩
            · exact w.2
            · rw [hn i h1] at h3
              cases h3
        exact execsN_mem (nextN_mem o2 m2.heap o2' hr hp fun a => by have := c2 a; bomega) n
      rw [hx]
      exact e3
    · rw [if_neg hr]
      exact e3
  · refine ⟨m1', L, ?_, List.perm_iff_count.2 fun a => by rw [c1, List.count_append], hL, fun h => ?_⟩
    · unfold oomSession
      simp only [e1, Res.ok_bind]
    · obtain ⟨i, h1, -, h3⟩ := g1
      rw [h i h1] at h3
      cases h3

end EDB
