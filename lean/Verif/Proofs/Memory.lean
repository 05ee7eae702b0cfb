import Verif.Model.Memory
import Verif.Proofs.Always
import Mathlib.Tactic.SplitIfs
import Mathlib.Tactic.Ring

/-!
# Who owns which block

Ownership is counted: `cnt a` says how often a block `a` occurs among the blocks of an operator, and the heap's live blocks
are those of the operators plus a frame `F` belonging to others.
-/

namespace EDB

open Spec (Heap Tree)

/-- 1 if the pointer is to block `a`. -/
def one (p a : Nat) : Nat := if p = a then 1 else 0

theorem one_self (p : Nat) : one p p = 1 := by simp [one]

/-- 1 if the pointer is to block `a`; NULL points to no block. -/
def oneOpt : Option Nat → Nat → Nat
  | none, _ => 0
  | some p, a => one p a

def oneSchema : SchemaPtr → Nat → Nat
  | none, _ => 0
  | some (s, cs), a => one s a + one cs a

theorem count_cons_one (p : Nat) (l : List Nat) (a : Nat) : (p :: l).count a = one p a + l.count a := by
  rw [List.count_cons]
  unfold one
  by_cases h : p = a
  · simp [h, Nat.add_comm]
  · simp [h]

theorem malloc_count (h : Heap) (a : Nat) :
    (malloc h).1.live.count a = one (malloc h).2 a + h.live.count a := count_cons_one _ _ _

theorem deref_ok {h : Heap} {p : Nat} (hc : 0 < h.live.count p) : deref h (some p) = .ok () := by
  exact if_pos (List.count_pos_iff.1 hc)

theorem free_some {h : Heap} {p : Nat} (hc : 0 < h.live.count p) :
    ∃ h', free h (some p) = .ok h' ∧ ∀ a, h'.live.count a + one p a = h.live.count a := by
  have hm := List.count_pos_iff.1 hc
  refine ⟨_, if_pos hm, fun a => ?_⟩
  show (h.live.erase p).count a + one p a = h.live.count a
  unfold one
  by_cases e : p = a
  · subst e
    rw [if_pos rfl, List.count_erase_self]
    omega
  · rw [if_neg e, List.count_erase_of_ne (by exact fun x => e x.symm)]
    omega

theorem free_ok {h : Heap} {p : Option Nat} (hc : ∀ a, oneOpt p a ≤ h.live.count a) :
    ∃ h', free h p = .ok h' ∧ ∀ a, h'.live.count a + oneOpt p a = h.live.count a := by
  cases p with
  | none => exact ⟨h, rfl, fun a => rfl⟩
  | some p =>
    have := hc p
    simp only [oneOpt, one_self] at this
    exact free_some this

theorem derefSchema_ok {h : Heap} {s cs : Nat} (hc : ∀ a, oneSchema (some (s, cs)) a ≤ h.live.count a) :
    derefSchema h (some (s, cs)) = .ok () := by
  have h1 := hc s
  have h2 := hc cs
  simp only [oneSchema, one_self] at h1 h2
  show (deref h (some s) >>= fun _ => deref h (some cs)) = _
  rw [deref_ok (by omega)]
  exact deref_ok (by omega)

theorem freeSchema_ok {h : Heap} {s : SchemaPtr} (hc : ∀ a, oneSchema s a ≤ h.live.count a) :
    ∃ h', freeSchema h s = .ok h' ∧ ∀ a, h'.live.count a + oneSchema s a = h.live.count a := by
  cases s with
  | none => exact ⟨h, rfl, fun a => rfl⟩
  | some q =>
    obtain ⟨s, cs⟩ := q
    have h1 := hc s
    have h2 := hc cs
    simp only [oneSchema, one_self] at h1 h2 hc
    obtain ⟨h', e, hh⟩ := free_some (h := h) (p := cs) (by omega)
    have h3 := hc s
    have h4 := hh s
    simp only [one_self] at h3
    obtain ⟨h'', e', hh'⟩ := free_some (h := h') (p := s) (by omega)
    refine ⟨h'', ?_, fun a => ?_⟩
    · show (deref h (some s) >>= fun _ => free h (some cs) >>= fun h => free h (some s)) = _
      rw [deref_ok (by omega), e]
      exact e'
    · have := hh a
      have := hh' a
      simp only [oneSchema]
      omega

theorem mallocSchema_count (h : Heap) (a : Nat) :
    (mallocSchema h).1.live.count a = oneSchema (mallocSchema h).2 a + h.live.count a := by
  show ((h.fresh + 1) :: h.fresh :: h.live).count a = one h.fresh a + one (h.fresh + 1) a + h.live.count a
  rw [count_cons_one, count_cons_one]
  omega

theorem mallocSchema_some (h : Heap) : ∃ s cs, (mallocSchema h).2 = some (s, cs) := ⟨_, _, rfl⟩

theorem ensure_count (h : Heap) (p : Option Nat) (a : Nat) :
    (ensure h p).1.live.count a + oneOpt p a = oneOpt (ensure h p).2 a + h.live.count a := by
  cases p with
  | none =>
    show (h.fresh :: h.live).count a + 0 = one h.fresh a + h.live.count a
    rw [count_cons_one]
    omega
  | some p =>
    show h.live.count a + one p a = one p a + h.live.count a
    omega

theorem ensure_some (h : Heap) (p : Option Nat) : ∃ q, (ensure h p).2 = some q := by
  cases p with
  | none => exact ⟨_, rfl⟩
  | some p => exact ⟨_, rfl⟩

/-- The blocks of an operator, without its inputs. -/
def OpPtrs.cnt (o : OpPtrs) (a : Nat) : Nat := one o.self a + oneOpt o.state a + oneSchema o.schema a + oneOpt o.buf a

/-- The blocks of a tree of operators. -/
def OpNode.cnt : OpNode → Nat → Nat
  | .scan o _, a => o.cnt a
  | .select o i, a => o.cnt a + i.cnt a
  | .project o i, a => o.cnt a + i.cnt a
  | .aggregate o l _ i, a => o.cnt a + oneOpt l a + i.cnt a
  | .join o _ i j, a => o.cnt a + i.cnt a + j.cnt a

/-- The heap's blocks are those of the operators and those of the frame. -/
def Owns (h : Heap) (o : OpNode) (F : Nat → Nat) : Prop := ∀ a, h.live.count a = o.cnt a + F a

/-- The blocks of the operators themselves. -/
def OpNode.selfs : OpNode → List Nat
  | .scan o _ => [o.self]
  | .select o i => o.self :: i.selfs
  | .project o i => o.self :: i.selfs
  | .aggregate o _ _ i => o.self :: i.selfs
  | .join o _ i j => o.self :: (i.selfs ++ j.selfs)

/-- The operators that `embedDBFreeOperatorRecursive` does not reach after `close`. -/
def OpNode.lost : OpNode → List Nat
  | .scan _ _ => []
  | .select _ i => i.lost
  | .project _ i => i.lost
  | .aggregate _ _ _ i => i.selfs
  | .join _ _ i j => i.lost ++ j.selfs

/-- Operators that have been created and not closed, and the tree they were created for. -/
def OpNode.Opened : OpNode → Tree → Prop
  | .scan o f, .scan f' => f = f' ∧ o.state.isSome ∧ o.schema.isSome
  | .select o i, .select t => o.state.isSome ∧ i.Opened t
  | .project o i, .project t => o.state.isSome ∧ i.Opened t
  | .aggregate o _ l i, .aggregate t => l = true ∧ o.state.isSome ∧ i.Opened t
  | .join o k i j, .join k' t u => k = k' ∧ o.state.isSome ∧ i.Opened t ∧ j.Opened u
  | _, _ => False

/-- Operators after `init`. -/
def OpNode.Inited : OpNode → Prop
  | .scan o _ => o.schema.isSome ∧ o.buf.isSome
  | .select o i => o.schema.isSome ∧ o.buf.isSome ∧ i.Inited
  | .project o i => o.schema.isSome ∧ o.buf.isSome ∧ i.Inited
  | .aggregate o l _ i => o.schema.isSome ∧ o.buf.isSome ∧ l.isSome ∧ i.Inited
  | .join o _ i j => o.schema.isSome ∧ o.buf.isSome ∧ i.Inited ∧ j.Inited

/-- The joins' record buffers have not been allocated yet. -/
def OpNode.NoJoinBuf : OpNode → Prop
  | .scan _ _ => True
  | .select _ i => i.NoJoinBuf
  | .project _ i => i.NoJoinBuf
  | .aggregate _ _ _ i => i.NoJoinBuf
  | .join o _ i j => o.buf = none ∧ i.NoJoinBuf ∧ j.NoJoinBuf

/-- Operators after `close`: only their own blocks are left. -/
def OpNode.Closed : OpNode → Prop
  | .scan o _ => o = ⟨o.self, none, none, none⟩
  | .select o i => o = ⟨o.self, none, none, none⟩ ∧ i.Closed
  | .project o i => o = ⟨o.self, none, none, none⟩ ∧ i.Closed
  | .aggregate o l k i => o = ⟨o.self, none, none, none⟩ ∧ l = none ∧ k = false ∧ i.Closed
  | .join o _ i j => o = ⟨o.self, none, none, none⟩ ∧ i.Closed ∧ j.Closed

theorem OpNode.ptrs_le (o : OpNode) (a : Nat) : o.ptrs.cnt a ≤ o.cnt a := by
  cases o <;> simp only [OpNode.ptrs, OpNode.cnt] <;> omega

theorem OpNode.Inited.schema {o : OpNode} (h : o.Inited) : o.ptrs.schema.isSome := by
  cases o <;> exact h.1

theorem OpNode.Inited.buf {o : OpNode} (h : o.Inited) : o.ptrs.buf.isSome := by
  cases o
  · exact h.2
  all_goals exact h.2.1

theorem closed_cnt (o : OpNode) (h : o.Closed) (a : Nat) : o.cnt a = o.selfs.count a := by
  have hp : ∀ p : OpPtrs, p = ⟨p.self, none, none, none⟩ → p.cnt a = one p.self a := by
    intro p e
    rw [e]
    simp only [OpPtrs.cnt, oneOpt, oneSchema]
    omega
  induction o with
  | scan p f =>
    simp only [OpNode.cnt, OpNode.selfs, count_cons_one, hp p h, List.count_nil]
    omega
  | select p i ih => simp only [OpNode.cnt, OpNode.selfs, count_cons_one, hp p h.1, ih h.2]
  | project p i ih => simp only [OpNode.cnt, OpNode.selfs, count_cons_one, hp p h.1, ih h.2]
  | aggregate p l k i ih =>
    simp only [OpNode.cnt, OpNode.selfs, count_cons_one, hp p h.1, ih h.2.2.2, h.2.1, oneOpt]
    omega
  | join p k i j ihi ihj =>
    simp only [OpNode.cnt, OpNode.selfs, count_cons_one, List.count_append, hp p h.1, ihi h.2.1, ihj h.2.2]
    omega

/-! ## Creating -/

theorem buildOps_ok (t : Tree) : ∀ (h : Heap), Owns (buildOps h t).1 (buildOps h t).2 (fun a => h.live.count a) ∧
    (buildOps h t).2.Opened t ∧ (buildOps h t).2.NoJoinBuf ∧ (buildOps h t).2.selfs.length = t.ops ∧
    (buildOps h t).2.lost.length = t.hidden := by
  induction t with
  | scan f =>
    intro h
    refine ⟨fun a => ?_, ⟨rfl, rfl, rfl⟩, trivial, rfl, rfl⟩
    show ((h.fresh + 1 + 1 + 1) :: (h.fresh + 1 + 1) :: (h.fresh + 1) :: h.fresh :: h.live).count a = _
    simp only [buildOps, malloc, mallocSchema, OpNode.cnt, OpPtrs.cnt, oneOpt, oneSchema, count_cons_one]
    omega
  | select t ih =>
    intro h
    obtain ⟨hc, ho, hn, hs, hl⟩ := ih h
    refine ⟨fun a => ?_, ⟨rfl, ho⟩, hn, by simp [buildOps, OpNode.selfs, Tree.ops, hs], hl⟩
    have := hc a
    simp only at this
    simp only [buildOps, malloc, OpNode.cnt, OpPtrs.cnt, oneOpt, oneSchema, count_cons_one]
    omega
  | project t ih =>
    intro h
    obtain ⟨hc, ho, hn, hs, hl⟩ := ih h
    refine ⟨fun a => ?_, ⟨rfl, ho⟩, hn, by simp [buildOps, OpNode.selfs, Tree.ops, hs], hl⟩
    have := hc a
    simp only at this
    simp only [buildOps, malloc, OpNode.cnt, OpPtrs.cnt, oneOpt, oneSchema, count_cons_one]
    omega
  | aggregate t ih =>
    intro h
    obtain ⟨hc, ho, hn, hs, hl⟩ := ih h
    refine ⟨fun a => ?_, ⟨rfl, rfl, ho⟩, hn, by simp [buildOps, OpNode.selfs, Tree.ops, hs], hs⟩
    have := hc a
    simp only at this
    simp only [buildOps, malloc, OpNode.cnt, OpPtrs.cnt, oneOpt, oneSchema, count_cons_one]
    omega
  | join k t u iht ihu =>
    intro h
    obtain ⟨hc, ho, hn, hs, hl⟩ := iht h
    obtain ⟨hc', ho', hn', hs', hl'⟩ := ihu (buildOps h t).1
    refine ⟨fun a => ?_, ⟨rfl, rfl, ho, ho'⟩, ⟨rfl, hn, hn'⟩, ?_, ?_⟩
    · have h1 := hc a
      have h2 := hc' a
      simp only at h1 h2
      simp only [buildOps, malloc, OpNode.cnt, OpPtrs.cnt, oneOpt, oneSchema, count_cons_one]
      omega
    · simp only [buildOps, OpNode.selfs, Tree.ops, List.length_cons, List.length_append, hs, hs']
    · simp only [buildOps, OpNode.lost, Tree.hidden, List.length_append, hl, hs']

/-! ## Running -/

/-- Everything an operator points to is live. -/
theorem OpPtrs.live {h : Heap} {p : OpPtrs} (hc : ∀ a, p.cnt a ≤ h.live.count a) :
    deref h (some p.self) = .ok () ∧ (p.state.isSome → deref h p.state = .ok ()) ∧
    (p.buf.isSome → deref h p.buf = .ok ()) ∧ (p.schema.isSome → derefSchema h p.schema = .ok ()) := by
  obtain ⟨self, state, schema, buf⟩ := p
  simp only [OpPtrs.cnt] at hc ⊢
  refine ⟨?_, ?_, ?_, ?_⟩
  · have := hc self
    rw [one_self] at this
    exact deref_ok (by omega)
  · intro hs
    cases state with
    | none => cases hs
    | some s =>
      have := hc s
      simp only [oneOpt, one_self] at this
      exact deref_ok (by omega)
  · intro hs
    cases buf with
    | none => cases hs
    | some s =>
      have := hc s
      simp only [oneOpt, one_self] at this
      exact deref_ok (by omega)
  · intro hs
    cases schema with
    | none => cases hs
    | some q =>
      obtain ⟨s, cs⟩ := q
      exact derefSchema_ok fun a => by have := hc a; omega

theorem next_mem (o : OpNode) : ∀ (t : Tree) (h : Heap), o.Opened t → o.Inited → (∀ a, o.cnt a ≤ h.live.count a) →
    o.next h = .ok () := by
  induction o with
  | scan p f =>
    intro t h ho hi hc
    obtain ⟨l1, l2, l3, l4⟩ := OpPtrs.live (h := h) (p := p) hc
    cases t <;> try exact ho.elim
    simp only [OpNode.next, l1, l2 ho.2.1, l3 hi.2, l4 hi.1, Res.ok_bind]
  | select p i ih =>
    intro t h ho hi hc
    obtain ⟨l1, l2, l3, l4⟩ := OpPtrs.live (h := h) (p := p) fun a => by have := hc a; simp only [OpNode.cnt] at this; omega
    have hci : ∀ a, i.cnt a ≤ h.live.count a := fun a => by have := hc a; simp only [OpNode.cnt] at this; omega
    obtain ⟨m1, m2, m3, m4⟩ := OpPtrs.live (h := h) (p := i.ptrs) fun a => (i.ptrs_le a).trans (hci a)
    cases t <;> try exact ho.elim
    simp only [OpNode.next, l1, l2 ho.1, l3 hi.2.1, l4 hi.1, m1, m3 hi.2.2.buf, m4 hi.2.2.schema,
      ih _ h ho.2 hi.2.2 hci, Res.ok_bind]
  | project p i ih =>
    intro t h ho hi hc
    obtain ⟨l1, l2, l3, l4⟩ := OpPtrs.live (h := h) (p := p) fun a => by have := hc a; simp only [OpNode.cnt] at this; omega
    have hci : ∀ a, i.cnt a ≤ h.live.count a := fun a => by have := hc a; simp only [OpNode.cnt] at this; omega
    obtain ⟨m1, m2, m3, m4⟩ := OpPtrs.live (h := h) (p := i.ptrs) fun a => (i.ptrs_le a).trans (hci a)
    cases t <;> try exact ho.elim
    simp only [OpNode.next, l1, l2 ho.1, l3 hi.2.1, m1, m3 hi.2.2.buf, m4 hi.2.2.schema,
      ih _ h ho.2 hi.2.2 hci, Res.ok_bind]
  | aggregate p l k i ih =>
    intro t h ho hi hc
    obtain ⟨l1, l2, l3, l4⟩ := OpPtrs.live (h := h) (p := p) fun a => by have := hc a; simp only [OpNode.cnt] at this; omega
    have hci : ∀ a, i.cnt a ≤ h.live.count a := fun a => by have := hc a; simp only [OpNode.cnt] at this; omega
    obtain ⟨m1, m2, m3, m4⟩ := OpPtrs.live (h := h) (p := i.ptrs) fun a => (i.ptrs_le a).trans (hci a)
    cases t <;> try exact ho.elim
    obtain ⟨q, rfl⟩ := Option.isSome_iff_exists.1 hi.2.2.1
    have hl : deref h (some q) = .ok () := deref_ok (by
      have := hc q
      simp only [OpNode.cnt, oneOpt, one_self] at this
      omega)
    obtain ⟨rfl, hs, ho⟩ := ho
    simp only [OpNode.next, l1, l2 hs, l3 hi.2.1, l4 hi.1, m1, m3 hi.2.2.2.buf, m4 hi.2.2.2.schema, hl,
      ih _ h ho hi.2.2.2 hci, Res.ok_bind, Bool.not_true, Bool.false_eq_true, if_false]
  | join p k i j ihi ihj =>
    intro t h ho hi hc
    obtain ⟨l1, l2, l3, l4⟩ := OpPtrs.live (h := h) (p := p) fun a => by have := hc a; simp only [OpNode.cnt] at this; omega
    have hci : ∀ a, i.cnt a ≤ h.live.count a := fun a => by have := hc a; simp only [OpNode.cnt] at this; omega
    have hcj : ∀ a, j.cnt a ≤ h.live.count a := fun a => by have := hc a; simp only [OpNode.cnt] at this; omega
    obtain ⟨m1, m2, m3, m4⟩ := OpPtrs.live (h := h) (p := i.ptrs) fun a => (i.ptrs_le a).trans (hci a)
    obtain ⟨n1, n2, n3, n4⟩ := OpPtrs.live (h := h) (p := j.ptrs) fun a => (j.ptrs_le a).trans (hcj a)
    cases t <;> try exact ho.elim
    simp only [OpNode.next, l1, l2 ho.2.1, l3 hi.2.1, m1, m3 hi.2.2.1.buf, m4 hi.2.2.1.schema, n1, n3 hi.2.2.2.buf,
      n4 hi.2.2.2.schema, ihi _ h ho.2.2.1 hi.2.2.1 hci, ihj _ h ho.2.2.2 hi.2.2.2 hcj, Res.ok_bind]

/-- `omega` after reducing applied functions. -/
macro "bomega" : tactic => `(tactic| ((try beta_reduce at *); omega))

/-! ## `init` -/

/-- `if (op->schema == NULL) op->schema = ..`. -/
theorem newSchema_ok (h : Heap) (s : SchemaPtr) :
    (∀ a, (if s.isNone then mallocSchema h else (h, s)).1.live.count a + oneSchema s a =
      oneSchema (if s.isNone then mallocSchema h else (h, s)).2 a + h.live.count a) ∧
    (if s.isNone then mallocSchema h else (h, s)).2.isSome := by
  cases s with
  | none =>
    refine ⟨fun a => ?_, rfl⟩
    have := mallocSchema_count h a
    simp only [Option.isNone_none, if_true, oneSchema] at this ⊢
    bomega
  | some q =>
    refine ⟨fun a => ?_, rfl⟩
    simp only [Option.isNone_some, Bool.false_eq_true, if_false]
    bomega

/-- After `init` the operators own their blocks; those overwritten by joins (`L`) are nobody's. -/
def InitOk (h' : Heap) (o o' : OpNode) (t : Tree) (F : Nat → Nat) : Prop :=
  ∃ L : Nat → Nat, (∀ a, h'.live.count a = o'.cnt a + (F a + L a)) ∧ o'.Opened t ∧ o'.Inited ∧ o'.selfs = o.selfs ∧
    o'.lost = o.lost ∧ (o.NoJoinBuf → ∀ a, L a = 0) ∧ (t.joinless → o'.NoJoinBuf)

theorem init_mem (o : OpNode) : ∀ (t : Tree) (h : Heap) (F : Nat → Nat), o.Opened t → t.valid → Owns h o F →
    ∃ h' o', o.init h = .ok (h', o') ∧ InitOk h' o o' t F := by
  induction o with
  | scan p f =>
    intro t h F ho hv hc
    cases t <;> try exact ho.elim
    obtain ⟨rfl, hst, hsc⟩ := ho
    simp only [Tree.valid] at hv
    subst hv
    obtain ⟨l1, l2, l3, l4⟩ := OpPtrs.live (h := h) (p := p) fun a => by
      have := hc a; simp only [OpNode.cnt] at this; bomega
    have hn : p.schema.isNone = false := by simpa using hsc
    refine ⟨(ensure h p.buf).1, .scan { p with buf := (ensure h p.buf).2 } true, ?_, ?_⟩
    · simp only [OpNode.init, l1, l2 hst, l4 hsc, hn, Res.ok_bind, Bool.not_true, Bool.false_eq_true, if_false]
    obtain ⟨q, hq⟩ := ensure_some h p.buf
    refine ⟨fun _ => 0, fun a => ?_, ⟨rfl, hst, hsc⟩, ⟨hsc, by rw [hq]; rfl⟩, rfl, rfl, fun _ _ => rfl, fun _ => trivial⟩
    have h1 := ensure_count h p.buf a
    have h2 := hc a
    simp only [OpNode.cnt, OpPtrs.cnt] at h1 h2 ⊢
    bomega
  | select p i ih =>
    intro t h F ho hv hc
    cases t <;> try exact ho.elim
    rename_i t
    obtain ⟨hst, ho⟩ := ho
    simp only [Tree.valid] at hv
    obtain ⟨l1, l2, l3, l4⟩ := OpPtrs.live (h := h) (p := p) fun a => by
      have := hc a; simp only [OpNode.cnt] at this; bomega
    obtain ⟨h1, i', e1, L, hc1, ho', hi', hs', hl', hL, hN⟩ := ih t h (fun a => p.cnt a + F a) ho hv fun a => by
      have := hc a; simp only [OpNode.cnt] at this; bomega
    obtain ⟨m1, m2, m3, m4⟩ := OpPtrs.live (h := h1) (p := i'.ptrs) fun a => by
      have := hc1 a; have := i'.ptrs_le a; bomega
    obtain ⟨hsc, hss⟩ := newSchema_ok h1 p.schema
    have e2 : (if p.schema.isNone then do
        deref h1 (some i'.ptrs.self)
        derefSchema h1 i'.ptrs.schema
        .ok (mallocSchema h1)
      else .ok (h1, p.schema) : Res (Heap × SchemaPtr)) = .ok (if p.schema.isNone then mallocSchema h1 else (h1, p.schema)) := by
      split_ifs
      · rw [m1, m4 hi'.schema]; rfl
      · rfl
    generalize (if p.schema.isNone then mallocSchema h1 else (h1, p.schema)) = hs at hsc hss e2
    obtain ⟨h2, s⟩ := hs
    simp only at hsc hss
    obtain ⟨⟨s1, s2⟩, rfl⟩ := Option.isSome_iff_exists.1 hss
    have e3 : derefSchema h2 (some (s1, s2)) = .ok () := derefSchema_ok fun a => by
      have h1 := hsc a
      have h2 := hc1 a
      simp only [OpPtrs.cnt] at h2
      bomega
    refine ⟨(ensure h2 p.buf).1, .select { p with schema := some (s1, s2), buf := (ensure h2 p.buf).2 } i', ?_, ?_⟩
    · simp only [OpNode.init, l1, e1, e2, e3, Res.ok_bind]
    obtain ⟨q, hq⟩ := ensure_some h2 p.buf
    refine ⟨L, fun a => ?_, ⟨hst, ho'⟩, ⟨rfl, by rw [hq]; rfl, hi'⟩, by simp only [OpNode.selfs, hs'], hl', hL, hN⟩
    have h3 := ensure_count h2 p.buf a
    have h4 := hc1 a
    have h5 := hsc a
    simp only [OpNode.cnt, OpPtrs.cnt] at h3 h4 h5 ⊢
    bomega
  | project p i ih =>
    intro t h F ho hv hc
    cases t <;> try exact ho.elim
    rename_i t
    obtain ⟨hst, ho⟩ := ho
    simp only [Tree.valid] at hv
    obtain ⟨l1, l2, l3, l4⟩ := OpPtrs.live (h := h) (p := p) fun a => by
      have := hc a; simp only [OpNode.cnt] at this; bomega
    obtain ⟨h1, i', e1, L, hc1, ho', hi', hs', hl', hL, hN⟩ := ih t h (fun a => p.cnt a + F a) ho hv fun a => by
      have := hc a; simp only [OpNode.cnt] at this; bomega
    obtain ⟨m1, m2, m3, m4⟩ := OpPtrs.live (h := h1) (p := i'.ptrs) fun a => by
      have := hc1 a; have := i'.ptrs_le a; bomega
    obtain ⟨k1, k2, k3, k4⟩ := OpPtrs.live (h := h1) (p := p) fun a => by
      have := hc1 a; bomega
    obtain ⟨hsc, hss⟩ := newSchema_ok h1 p.schema
    have e2 : (if p.schema.isNone then do
        derefSchema h1 i'.ptrs.schema
        .ok (mallocSchema h1)
      else .ok (h1, p.schema) : Res (Heap × SchemaPtr)) = .ok (if p.schema.isNone then mallocSchema h1 else (h1, p.schema)) := by
      split_ifs
      · rw [m4 hi'.schema]; rfl
      · rfl
    generalize (if p.schema.isNone then mallocSchema h1 else (h1, p.schema)) = hs at hsc hss e2
    obtain ⟨h2, s⟩ := hs
    simp only at hsc hss
    obtain ⟨⟨s1, s2⟩, rfl⟩ := Option.isSome_iff_exists.1 hss
    have e3 : derefSchema h2 (some (s1, s2)) = .ok () := derefSchema_ok fun a => by
      have h1 := hsc a
      have h2 := hc1 a
      simp only [OpPtrs.cnt] at h2
      bomega
    refine ⟨(ensure h2 p.buf).1, .project { p with schema := some (s1, s2), buf := (ensure h2 p.buf).2 } i', ?_, ?_⟩
    · simp only [OpNode.init, l1, e1, e2, e3, k2 hst, m1, Res.ok_bind]
    obtain ⟨q, hq⟩ := ensure_some h2 p.buf
    refine ⟨L, fun a => ?_, ⟨hst, ho'⟩, ⟨rfl, by rw [hq]; rfl, hi'⟩, by simp only [OpNode.selfs, hs'], hl', hL, hN⟩
    have h3 := ensure_count h2 p.buf a
    have h4 := hc1 a
    have h5 := hsc a
    simp only [OpNode.cnt, OpPtrs.cnt] at h3 h4 h5 ⊢
    bomega
  | aggregate p l k i ih =>
    intro t h F ho hv hc
    cases t <;> try exact ho.elim
    rename_i t
    obtain ⟨rfl, hst, ho⟩ := ho
    simp only [Tree.valid] at hv
    obtain ⟨l1, l2, l3, l4⟩ := OpPtrs.live (h := h) (p := p) fun a => by
      have := hc a; simp only [OpNode.cnt] at this; bomega
    obtain ⟨h1, i', e1, L, hc1, ho', hi', hs', hl', hL, hN⟩ := ih t h (fun a => p.cnt a + oneOpt l a + F a) ho hv fun a => by
      have := hc a; simp only [OpNode.cnt] at this; bomega
    obtain ⟨k1, k2, k3, k4⟩ := OpPtrs.live (h := h1) (p := p) fun a => by
      have := hc1 a; bomega
    obtain ⟨hsc, hss⟩ := newSchema_ok h1 p.schema
    generalize eh : (if p.schema.isNone then mallocSchema h1 else (h1, p.schema)) = hs at hsc hss
    obtain ⟨h2, s⟩ := hs
    simp only at hsc hss
    obtain ⟨⟨s1, s2⟩, rfl⟩ := Option.isSome_iff_exists.1 hss
    obtain ⟨m1, m2, m3, m4⟩ := OpPtrs.live (h := h2) (p := i'.ptrs) fun a => by
      have h1 := hsc a
      have h2 := hc1 a
      have := i'.ptrs_le a
      simp only [OpPtrs.cnt] at *
      bomega
    have e3 : derefSchema h2 (some (s1, s2)) = .ok () := derefSchema_ok fun a => by
      have h1 := hsc a
      have h2 := hc1 a
      simp only [OpPtrs.cnt] at h2
      bomega
    obtain ⟨q, hq⟩ := ensure_some h2 p.buf
    obtain ⟨q', hq'⟩ := ensure_some (ensure h2 p.buf).1 l
    refine ⟨(ensure (ensure h2 p.buf).1 l).1, .aggregate { p with schema := some (s1, s2), buf := (ensure h2 p.buf).2 }
      (ensure (ensure h2 p.buf).1 l).2 true i', ?_, ?_⟩
    · simp only [OpNode.init, l1, e1, eh, e3, k2 hst, m1, m4 hi'.schema, Res.ok_bind, Bool.not_true, Bool.false_eq_true,
        if_false]
    refine ⟨L, fun a => ?_, ⟨rfl, hst, ho'⟩, ⟨rfl, by rw [hq]; rfl, by rw [hq']; rfl, hi'⟩,
      by simp only [OpNode.selfs, hs'], by simp only [OpNode.lost, hs'], hL, hN⟩
    have h3 := ensure_count h2 p.buf a
    have h4 := hc1 a
    have h5 := hsc a
    have h6 := ensure_count (ensure h2 p.buf).1 l a
    simp only [OpNode.cnt, OpPtrs.cnt] at h3 h4 h5 h6 ⊢
    bomega
  | join p k i j ihi ihj =>
    intro t h F ho hv hc
    cases t <;> try exact ho.elim
    rename_i kk t u
    obtain ⟨rfl, hst, ho, hoj⟩ := ho
    simp only [Tree.valid, Bool.and_eq_true] at hv
    obtain ⟨⟨rfl, hv⟩, hvj⟩ := hv
    obtain ⟨l1, l2, l3, l4⟩ := OpPtrs.live (h := h) (p := p) fun a => by
      have := hc a; simp only [OpNode.cnt] at this; bomega
    obtain ⟨h1, i', e1, L, hc1, ho', hi', hs', hl', hL, hN⟩ := ihi t h (fun a => p.cnt a + j.cnt a + F a) ho hv fun a => by
      have := hc a; simp only [OpNode.cnt] at this; bomega
    obtain ⟨h2, j', f1, M, hd1, go', gi', gs', gl', gL, gN⟩ := ihj u h1 (fun a => p.cnt a + i'.cnt a + F a + L a) hoj hvj
      fun a => by have := hc1 a; bomega
    obtain ⟨hsc, hss⟩ := newSchema_ok h2 p.schema
    generalize eh : (if p.schema.isNone then mallocSchema h2 else (h2, p.schema)) = hs at hsc hss
    obtain ⟨h3, s⟩ := hs
    simp only at hsc hss
    obtain ⟨⟨s1, s2⟩, rfl⟩ := Option.isSome_iff_exists.1 hss
    obtain ⟨m1, m2, m3, m4⟩ := OpPtrs.live (h := h2) (p := i'.ptrs) fun a => by
      have h2 := hd1 a
      have := i'.ptrs_le a
      bomega
    obtain ⟨n1, n2, n3, n4⟩ := OpPtrs.live (h := h2) (p := j'.ptrs) fun a => by
      have h2 := hd1 a
      have := j'.ptrs_le a
      bomega
    have e3 : derefSchema h3 (some (s1, s2)) = .ok () := derefSchema_ok fun a => by
      have h1 := hsc a
      have h2 := hd1 a
      simp only [OpPtrs.cnt] at h2
      bomega
    refine ⟨(malloc h3).1, .join { p with schema := some (s1, s2), buf := some (malloc h3).2 } true i' j', ?_, ?_⟩
    · simp only [OpNode.init, l1, l2 hst, e1, f1, eh, e3, m1, m4 hi'.schema, n1, n4 gi'.schema, Res.ok_bind, Bool.not_true,
        Bool.false_eq_true, if_false]
    refine ⟨fun a => oneOpt p.buf a + L a + M a, fun a => ?_, ⟨rfl, hst, ho', go'⟩, ⟨rfl, rfl, hi', gi'⟩,
      by simp only [OpNode.selfs, hs', gs'], by simp only [OpNode.lost, hl', gs'], ?_, fun hf => by cases hf⟩
    · have h4 := hd1 a
      have h5 := hsc a
      have h6 := malloc_count h3 a
      simp only [OpNode.cnt, OpPtrs.cnt, oneOpt] at h4 h5 h6 ⊢
      bomega
    · rintro ⟨hb, hn, hm⟩ a
      simp only [hb, oneOpt, hL hn a, gL hm a]

/-- `init` any number of times. -/
theorem inits_mem (t : Tree) (hv : t.valid) : ∀ (k : Nat) (o : OpNode) (h : Heap) (F : Nat → Nat), o.Opened t →
    o.NoJoinBuf → (t.joinless ∨ k ≤ 1) → Owns h o F → ∃ h' o', o.inits h k = .ok (h', o') ∧ Owns h' o' F ∧ o'.Opened t ∧
      (0 < k ∨ o.Inited → o'.Inited) ∧ o'.selfs = o.selfs ∧ o'.lost = o.lost
  | 0, o, h, F, ho, _, _, hc => ⟨h, o, rfl, hc, ho, fun x => x.resolve_left (by bomega), rfl, rfl⟩
  | k + 1, o, h, F, ho, hn, hk, hc => by
    obtain ⟨h1, o1, e1, L, hc1, ho1, hi1, hs1, hl1, hL, hN⟩ := init_mem o t h F ho hv hc
    have hL := hL hn
    rcases hk with hj | hk
    · obtain ⟨h2, o2, e2, hc2, ho2, hi2, hs2, hl2⟩ := inits_mem t hv k o1 h1 F ho1 (hN hj) (.inl hj) fun a => by
        have := hc1 a; have := hL a; bomega
      exact ⟨h2, o2, by simp only [OpNode.inits, e1, Res.ok_bind, e2], hc2, ho2, fun _ => hi2 (.inr hi1), hs2.trans hs1,
        hl2.trans hl1⟩
    · obtain rfl : k = 0 := by bomega
      exact ⟨h1, o1, by simp only [OpNode.inits, e1, Res.ok_bind], fun a => by have := hc1 a; have := hL a; bomega, ho1,
        fun _ => hi1, hs1, hl1⟩

theorem execs_mem (t : Tree) (o : OpNode) (h : Heap) (ho : o.Opened t) (hi : o.Inited)
    (hc : ∀ a, o.cnt a ≤ h.live.count a) : ∀ n, o.execs h n = .ok ()
  | 0 => rfl
  | n + 1 => by simp only [OpNode.execs, next_mem o t h ho hi hc, Res.ok_bind, execs_mem t o h ho hi hc n]

/-! ## `close` -/

theorem close_mem (o : OpNode) : ∀ (t : Tree) (h : Heap) (F : Nat → Nat), o.Opened t → Owns h o F →
    ∃ h' o', o.close h = .ok (h', o') ∧ Owns h' o' F ∧ o'.Closed ∧ o'.selfs = o.selfs ∧ o'.lost = o.lost := by
  induction o with
  | scan p f =>
    intro t h F ho hc
    simp only [Owns, OpNode.cnt, OpPtrs.cnt] at hc
    obtain ⟨l1, -⟩ := OpPtrs.live (h := h) (p := p) fun a => by have := hc a; simp only [OpPtrs.cnt]; bomega
    obtain ⟨h1, e1, c1⟩ := freeSchema_ok (h := h) (s := p.schema) fun a => by have := hc a; bomega
    obtain ⟨h2, e2, c2⟩ := free_ok (h := h1) (p := p.buf) fun a => by have := hc a; have := c1 a; bomega
    obtain ⟨h3, e3, c3⟩ := free_ok (h := h2) (p := p.state) fun a => by have := hc a; have := c1 a; have := c2 a; bomega
    refine ⟨h3, .scan ⟨p.self, none, none, none⟩ f, ?_, fun a => ?_, rfl, rfl, rfl⟩
    · simp only [OpNode.close, l1, e1, e2, e3, Res.ok_bind]
    · have := hc a; have := c1 a; have := c2 a; have := c3 a
      simp only [OpNode.cnt, OpPtrs.cnt, oneOpt, oneSchema]
      bomega
  | select p i ih =>
    intro t h F ho hc
    cases t <;> try exact ho.elim
    rename_i t
    simp only [Owns, OpNode.cnt, OpPtrs.cnt] at hc
    obtain ⟨l1, -⟩ := OpPtrs.live (h := h) (p := p) fun a => by have := hc a; simp only [OpPtrs.cnt]; bomega
    obtain ⟨h0, i', e0, c0, hcl, hs, hl⟩ := ih t h (fun a => p.cnt a + F a) ho.2 fun a => by
      have := hc a; simp only [OpPtrs.cnt]; bomega
    simp only [Owns, OpPtrs.cnt] at c0
    obtain ⟨h1, e1, c1⟩ := freeSchema_ok (h := h0) (s := p.schema) fun a => by have := c0 a; bomega
    obtain ⟨h2, e2, c2⟩ := free_ok (h := h1) (p := p.state) fun a => by have := c0 a; have := c1 a; bomega
    obtain ⟨h3, e3, c3⟩ := free_ok (h := h2) (p := p.buf) fun a => by have := c0 a; have := c1 a; have := c2 a; bomega
    refine ⟨h3, .select ⟨p.self, none, none, none⟩ i', ?_, fun a => ?_, ⟨rfl, hcl⟩, by simp only [OpNode.selfs, hs], hl⟩
    · simp only [OpNode.close, l1, e0, e1, e2, e3, Res.ok_bind]
    · have := c0 a; have := c1 a; have := c2 a; have := c3 a
      simp only [OpNode.cnt, OpPtrs.cnt, oneOpt, oneSchema]
      bomega
  | project p i ih =>
    intro t h F ho hc
    cases t <;> try exact ho.elim
    rename_i t
    simp only [Owns, OpNode.cnt, OpPtrs.cnt] at hc
    obtain ⟨l1, -⟩ := OpPtrs.live (h := h) (p := p) fun a => by have := hc a; simp only [OpPtrs.cnt]; bomega
    obtain ⟨h0, i', e0, c0, hcl, hs, hl⟩ := ih t h (fun a => p.cnt a + F a) ho.2 fun a => by
      have := hc a; simp only [OpPtrs.cnt]; bomega
    simp only [Owns, OpPtrs.cnt] at c0
    obtain ⟨h1, e1, c1⟩ := freeSchema_ok (h := h0) (s := p.schema) fun a => by have := c0 a; bomega
    obtain ⟨h2, e2, c2⟩ := free_ok (h := h1) (p := p.state) fun a => by have := c0 a; have := c1 a; bomega
    obtain ⟨h3, e3, c3⟩ := free_ok (h := h2) (p := p.buf) fun a => by have := c0 a; have := c1 a; have := c2 a; bomega
    refine ⟨h3, .project ⟨p.self, none, none, none⟩ i', ?_, fun a => ?_, ⟨rfl, hcl⟩, by simp only [OpNode.selfs, hs], hl⟩
    · simp only [OpNode.close, l1, e0, e1, e2, e3, Res.ok_bind]
    · have := c0 a; have := c1 a; have := c2 a; have := c3 a
      simp only [OpNode.cnt, OpPtrs.cnt, oneOpt, oneSchema]
      bomega
  | aggregate p l k i ih =>
    intro t h F ho hc
    cases t <;> try exact ho.elim
    rename_i t
    obtain ⟨rfl, hst, ho⟩ := ho
    simp only [Owns, OpNode.cnt, OpPtrs.cnt] at hc
    obtain ⟨l1, -⟩ := OpPtrs.live (h := h) (p := p) fun a => by have := hc a; simp only [OpPtrs.cnt]; bomega
    obtain ⟨h0, i', e0, c0, hcl, hs, hl⟩ := ih t h (fun a => p.cnt a + oneOpt l a + F a) ho fun a => by
      have := hc a; simp only [OpPtrs.cnt]; bomega
    simp only [Owns, OpPtrs.cnt] at c0
    obtain ⟨h1, e1, c1⟩ := freeSchema_ok (h := h0) (s := p.schema) fun a => by have := c0 a; bomega
    obtain ⟨q, hq⟩ := Option.isSome_iff_exists.1 hst
    have e' : deref h1 p.state = .ok () := by
      rw [hq]
      refine deref_ok ?_
      have h1 := c0 q
      have h2 := c1 q
      simp only [hq, oneOpt, one_self] at h1
      bomega
    obtain ⟨h2, e2, c2⟩ := free_ok (h := h1) (p := l) fun a => by have := c0 a; have := c1 a; bomega
    obtain ⟨h3, e3, c3⟩ := free_ok (h := h2) (p := p.state) fun a => by have := c0 a; have := c1 a; have := c2 a; bomega
    obtain ⟨h4, e4, c4⟩ := free_ok (h := h3) (p := p.buf) fun a => by
      have := c0 a; have := c1 a; have := c2 a; have := c3 a; bomega
    refine ⟨h4, .aggregate ⟨p.self, none, none, none⟩ none false i', ?_, fun a => ?_, ⟨rfl, rfl, rfl, hcl⟩,
      by simp only [OpNode.selfs, hs], by simp only [OpNode.lost, hs]⟩
    · simp only [OpNode.close, l1, e0, e1, e', e2, e3, e4, Res.ok_bind, Bool.not_true, Bool.false_eq_true, if_false]
    · have := c0 a; have := c1 a; have := c2 a; have := c3 a; have := c4 a
      simp only [OpNode.cnt, OpPtrs.cnt, oneOpt, oneSchema]
      bomega
  | join p k i j ihi ihj =>
    intro t h F ho hc
    cases t <;> try exact ho.elim
    rename_i kk t u
    obtain ⟨rfl, hst, ho, hoj⟩ := ho
    simp only [Owns, OpNode.cnt, OpPtrs.cnt] at hc
    obtain ⟨l1, l2, -⟩ := OpPtrs.live (h := h) (p := p) fun a => by have := hc a; simp only [OpPtrs.cnt]; bomega
    obtain ⟨h0, i', e0, c0, hcl, hs, hl⟩ := ihi t h (fun a => p.cnt a + j.cnt a + F a) ho fun a => by
      have := hc a; simp only [OpPtrs.cnt]; bomega
    obtain ⟨g0, j', f0, d0, gcl, gs, gl⟩ := ihj u h0 (fun a => p.cnt a + i'.cnt a + F a) hoj fun a => by
      have := c0 a; simp only at this; bomega
    simp only [Owns, OpPtrs.cnt] at d0
    obtain ⟨h1, e1, c1⟩ := freeSchema_ok (h := g0) (s := p.schema) fun a => by have := d0 a; bomega
    obtain ⟨h2, e2, c2⟩ := free_ok (h := h1) (p := p.state) fun a => by have := d0 a; have := c1 a; bomega
    obtain ⟨h3, e3, c3⟩ := free_ok (h := h2) (p := p.buf) fun a => by have := d0 a; have := c1 a; have := c2 a; bomega
    refine ⟨h3, .join ⟨p.self, none, none, none⟩ k i' j', ?_, fun a => ?_, ⟨rfl, hcl, gcl⟩,
      by simp only [OpNode.selfs, hs, gs], by simp only [OpNode.lost, hl, gs]⟩
    · simp only [OpNode.close, l1, l2 hst, e0, f0, e1, e2, e3, Res.ok_bind]
    · have := d0 a; have := c1 a; have := c2 a; have := c3 a
      simp only [OpNode.cnt, OpPtrs.cnt, oneOpt, oneSchema]
      bomega

/-! ## Freeing -/

theorem freeAll_closed {h : Heap} {p : OpPtrs} (hp : p = ⟨p.self, none, none, none⟩) (hc : 0 < h.live.count p.self) :
    ∃ h', p.freeAll h = .ok h' ∧ ∀ a, h'.live.count a + one p.self a = h.live.count a := by
  rw [hp]
  exact free_some hc

theorem freeRec_mem (o : OpNode) : ∀ (h : Heap) (F : Nat → Nat), o.Closed →
    (∀ a, h.live.count a = o.selfs.count a + F a) →
    ∃ h', o.freeRec h = .ok h' ∧ ∀ a, h'.live.count a = o.lost.count a + F a := by
  induction o with
  | scan p f =>
    intro h F hcl hc
    simp only [OpNode.selfs, count_cons_one, List.count_nil] at hc
    have h0 := hc p.self
    rw [one_self] at h0
    obtain ⟨h1, e1, c1⟩ := freeAll_closed (h := h) hcl (by bomega)
    refine ⟨h1, by simp only [OpNode.freeRec, deref_ok (show 0 < h.live.count p.self by bomega), Res.ok_bind, e1], fun a => ?_⟩
    have := hc a; have := c1 a
    simp only [OpNode.lost, List.count_nil]
    bomega
  | select p i ih =>
    intro h F hcl hc
    simp only [OpNode.selfs, count_cons_one] at hc
    have h0 := hc p.self
    rw [one_self] at h0
    obtain ⟨h', e', c'⟩ := ih h (fun a => one p.self a + F a) hcl.2 fun a => by have := hc a; bomega
    have h1 := c' p.self
    simp only [one_self] at h1
    obtain ⟨h1, e1, c1⟩ := freeAll_closed (h := h') hcl.1 (by bomega)
    refine ⟨h1, by simp only [OpNode.freeRec, deref_ok (show 0 < h.live.count p.self by bomega), Res.ok_bind, e', e1],
      fun a => ?_⟩
    have h2 := c' a; have := c1 a
    simp only [OpNode.lost] at h2 ⊢
    bomega
  | project p i ih =>
    intro h F hcl hc
    simp only [OpNode.selfs, count_cons_one] at hc
    have h0 := hc p.self
    rw [one_self] at h0
    obtain ⟨h', e', c'⟩ := ih h (fun a => one p.self a + F a) hcl.2 fun a => by have := hc a; bomega
    have h1 := c' p.self
    simp only [one_self] at h1
    obtain ⟨h1, e1, c1⟩ := freeAll_closed (h := h') hcl.1 (by bomega)
    refine ⟨h1, by simp only [OpNode.freeRec, deref_ok (show 0 < h.live.count p.self by bomega), Res.ok_bind, e', e1],
      fun a => ?_⟩
    have h2 := c' a; have := c1 a
    simp only [OpNode.lost] at h2 ⊢
    bomega
  | aggregate p l k i ih =>
    intro h F hcl hc
    obtain ⟨hp, rfl, rfl, hi⟩ := hcl
    simp only [OpNode.selfs, count_cons_one] at hc
    have h0 := hc p.self
    rw [one_self] at h0
    obtain ⟨h1, e1, c1⟩ := freeAll_closed (h := h) hp (by bomega)
    refine ⟨h1, by simp only [OpNode.freeRec, deref_ok (show 0 < h.live.count p.self by bomega), Res.ok_bind, e1,
      Bool.false_eq_true, if_false], fun a => ?_⟩
    have := hc a; have := c1 a
    simp only [OpNode.lost]
    bomega
  | join p k i j ihi ihj =>
    intro h F hcl hc
    simp only [OpNode.selfs, count_cons_one, List.count_append] at hc
    have h0 := hc p.self
    rw [one_self] at h0
    obtain ⟨h', e', c'⟩ := ihi h (fun a => one p.self a + j.selfs.count a + F a) hcl.2.1 fun a => by have := hc a; bomega
    have h1 := c' p.self
    simp only [one_self] at h1
    obtain ⟨h1, e1, c1⟩ := freeAll_closed (h := h') hcl.1 (by bomega)
    refine ⟨h1, by simp only [OpNode.freeRec, deref_ok (show 0 < h.live.count p.self by bomega), Res.ok_bind, e', e1],
      fun a => ?_⟩
    have h2 := c' a; have := c1 a
    simp only [OpNode.lost, List.count_append] at h2 ⊢
    bomega

theorem freeEach_mem (o : OpNode) : ∀ (h : Heap) (F : Nat → Nat), (∀ a, h.live.count a = o.selfs.count a + F a) →
    ∃ h', o.freeEach h = .ok h' ∧ ∀ a, h'.live.count a = F a := by
  induction o with
  | scan p f =>
    intro h F hc
    simp only [OpNode.selfs, count_cons_one, List.count_nil] at hc
    have h0 := hc p.self
    rw [one_self] at h0
    obtain ⟨h1, e1, c1⟩ := free_some (h := h) (p := p.self) (by bomega)
    exact ⟨h1, e1, fun a => by have := hc a; have := c1 a; bomega⟩
  | select p i ih =>
    intro h F hc
    simp only [OpNode.selfs, count_cons_one] at hc
    have h0 := hc p.self
    rw [one_self] at h0
    obtain ⟨h1, e1, c1⟩ := free_some (h := h) (p := p.self) (by bomega)
    obtain ⟨h2, e2, c2⟩ := ih h1 F fun a => by have := hc a; have := c1 a; bomega
    exact ⟨h2, by simp only [OpNode.freeEach, e1, Res.ok_bind, e2], c2⟩
  | project p i ih =>
    intro h F hc
    simp only [OpNode.selfs, count_cons_one] at hc
    have h0 := hc p.self
    rw [one_self] at h0
    obtain ⟨h1, e1, c1⟩ := free_some (h := h) (p := p.self) (by bomega)
    obtain ⟨h2, e2, c2⟩ := ih h1 F fun a => by have := hc a; have := c1 a; bomega
    exact ⟨h2, by simp only [OpNode.freeEach, e1, Res.ok_bind, e2], c2⟩
  | aggregate p l k i ih =>
    intro h F hc
    simp only [OpNode.selfs, count_cons_one] at hc
    have h0 := hc p.self
    rw [one_self] at h0
    obtain ⟨h1, e1, c1⟩ := free_some (h := h) (p := p.self) (by bomega)
    obtain ⟨h2, e2, c2⟩ := ih h1 F fun a => by have := hc a; have := c1 a; bomega
    exact ⟨h2, by simp only [OpNode.freeEach, e1, Res.ok_bind, e2], c2⟩
  | join p k i j ihi ihj =>
    intro h F hc
    simp only [OpNode.selfs, count_cons_one, List.count_append] at hc
    have h0 := hc p.self
    rw [one_self] at h0
    obtain ⟨h1, e1, c1⟩ := free_some (h := h) (p := p.self) (by bomega)
    obtain ⟨h2, e2, c2⟩ := ihi h1 (fun a => j.selfs.count a + F a) fun a => by have := hc a; have := c1 a; bomega
    obtain ⟨h3, e3, c3⟩ := ihj h2 F c2
    exact ⟨h3, by simp only [OpNode.freeEach, e1, Res.ok_bind, e2, e3], c3⟩

/-! ## Whole sessions -/

/-- Up to `close`: the operators' own blocks remain. -/
theorem session_close (h : Heap) (t : Tree) (k n : Nat) (hv : t.valid) (hk : t.joinless ∨ k ≤ 1) (hn : n = 0 ∨ 0 < k) :
    ∃ h' o', (∀ (f : Heap × OpNode → Res Heap), (do
        let (h, o) := buildOps h t
        let (h, o) ← o.inits h k
        o.execs h n
        let r ← o.close h
        f r) = f (h', o')) ∧
      o'.Closed ∧ (∀ a, h'.live.count a = o'.selfs.count a + h.live.count a) ∧ o'.lost.length = t.hidden := by
  obtain ⟨hc, ho, hb, hs, hl⟩ := buildOps_ok t h
  obtain ⟨h1, o1, e1, hc1, ho1, hi1, hs1, hl1⟩ := inits_mem t hv k _ _ _ ho hb hk hc
  have e2 : o1.execs h1 n = .ok () := by
    rcases hn with rfl | hk0
    · rfl
    · exact execs_mem t o1 h1 ho1 (hi1 (.inl hk0)) (fun a => by have := hc1 a; bomega) n
  obtain ⟨h2, o2, e3, hc2, hcl, hs2, hl2⟩ := close_mem o1 t h1 _ ho1 hc1
  refine ⟨h2, o2, fun f => ?_, hcl, fun a => ?_, by rw [hl2, hl1, hl]⟩
  · simp only [e1, e2, e3, Res.ok_bind]
  · have := hc2 a
    rw [closed_cnt o2 hcl a] at this
    exact this

/-! ## The database and its iterators -/

theorem sum_eraseIdx {α : Type} (f : α → Nat) : ∀ (l : List α) (i : Nat) (x : α), l[i]? = some x →
    (l.map f).sum = f x + ((l.eraseIdx i).map f).sum
  | [], _, _, e => by cases e
  | y :: l, 0, x, e => by
    simp only [List.getElem?_cons_zero, Option.some.injEq] at e
    simp [e]
  | y :: l, i + 1, x, e => by
    have := sum_eraseIdx f l i x (by simpa using e)
    simp only [List.map_cons, List.sum_cons, List.eraseIdx_cons_succ]
    omega

theorem itOps_ok (F : Nat → Nat) : ∀ (ops : List ItOp) (h : Heap) (its : List (Option Nat)),
    (∀ a, h.live.count a = (its.map fun p => oneOpt p a).sum + F a) →
    ∃ h' its', itOps h its ops = .ok (h', its') ∧ ∀ a, h'.live.count a = (its'.map fun p => oneOpt p a).sum + F a
  | [], h, its, hc => ⟨h, its, rfl, hc⟩
  | .opn b :: ops, h, its, hc => by
    obtain ⟨h', its', e, c⟩ := itOps_ok F ops (openIt h b).1 (its ++ [(openIt h b).2]) fun a => by
      have h1 := hc a
      have h2 : (openIt h b).1.live.count a = oneOpt (openIt h b).2 a + h.live.count a := by
        unfold openIt
        split_ifs
        · have := ensure_count h none a
          simpa only [oneOpt, Nat.add_zero] using this
        · simp only [oneOpt]
          bomega
      simp only [List.map_append, List.sum_append, List.map_cons, List.map_nil, List.sum_cons, List.sum_nil]
      bomega
    exact ⟨h', its', e, c⟩
  | .cls i :: ops, h, its, hc => by
    cases e : its[i]? with
    | none =>
      obtain ⟨h', its', e', c⟩ := itOps_ok F ops h its hc
      exact ⟨h', its', by simp only [itOps, e]; exact e', c⟩
    | some it =>
      have hs : ∀ a, (its.map fun p => oneOpt p a).sum = oneOpt it a + ((its.eraseIdx i).map fun p => oneOpt p a).sum := by
        intro a
        exact sum_eraseIdx (fun p => oneOpt p a) its i it e
      obtain ⟨h1, e1, c1⟩ := free_ok (h := h) (p := it) fun a => by have := hc a; have := hs a; bomega
      obtain ⟨h', its', e', c⟩ := itOps_ok F ops h1 (its.eraseIdx i) fun a => by
        have := hc a; have := hs a; have := c1 a; bomega
      exact ⟨h', its', by simp only [itOps, e, closeIt, e1, Res.ok_bind]; exact e', c⟩

theorem closeIts_ok (F : Nat → Nat) : ∀ (its : List (Option Nat)) (h : Heap),
    (∀ a, h.live.count a = (its.map fun p => oneOpt p a).sum + F a) →
    ∃ h', closeIts h its = .ok h' ∧ ∀ a, h'.live.count a = F a
  | [], h, hc => ⟨h, rfl, fun a => by have := hc a; simpa using this⟩
  | it :: its, h, hc => by
    simp only [List.map_cons, List.sum_cons] at hc
    obtain ⟨h1, e1, c1⟩ := free_ok (h := h) (p := it) fun a => by have := hc a; bomega
    obtain ⟨h2, e2, c2⟩ := closeIts_ok F its h1 fun a => by have := hc a; have := c1 a; bomega
    exact ⟨h2, by simp only [closeIts, closeIt, e1, Res.ok_bind, e2], c2⟩

/-- The blocks of a spline. -/
def oneSpl : Option SplPtrs → Nat → Nat
  | none, _ => 0
  | some s, a => one s.self a + one s.points a + one s.lastKey a + one s.lower a + one s.upper a + one s.first a

theorem initSpl_count (h : Heap) (b : Bool) (a : Nat) :
    (initSpl h b).1.live.count a = oneSpl (initSpl h b).2 a + h.live.count a := by
  cases b
  · simp only [initSpl, malloc, oneSpl, count_cons_one, Bool.false_eq_true, if_false]
    bomega
  · simp only [initSpl, oneSpl, if_true]
    bomega

theorem closeDb_ok {h : Heap} (s : Option SplPtrs) (F : Nat → Nat) (hc : ∀ a, h.live.count a = oneSpl s a + F a) :
    ∃ h', closeDb h s = .ok h' ∧ ∀ a, h'.live.count a = F a := by
  cases s with
  | none => exact ⟨h, rfl, fun a => by have := hc a; simpa [oneSpl] using this⟩
  | some s =>
    simp only [oneSpl] at hc
    have l0 := hc s.self
    rw [one_self] at l0
    obtain ⟨h1, e1, c1⟩ := free_ok (h := h) (p := some s.points) fun a => by have := hc a; simp only [oneOpt]; bomega
    simp only [oneOpt] at c1
    obtain ⟨h2, e2, c2⟩ := free_ok (h := h1) (p := some s.lastKey) fun a => by
      have := hc a; have := c1 a; simp only [oneOpt]; bomega
    simp only [oneOpt] at c2
    obtain ⟨h3, e3, c3⟩ := free_ok (h := h2) (p := some s.lower) fun a => by
      have := hc a; have := c1 a; have := c2 a; simp only [oneOpt]; bomega
    simp only [oneOpt] at c3
    obtain ⟨h4, e4, c4⟩ := free_ok (h := h3) (p := some s.upper) fun a => by
      have := hc a; have := c1 a; have := c2 a; have := c3 a; simp only [oneOpt]; bomega
    simp only [oneOpt] at c4
    obtain ⟨h5, e5, c5⟩ := free_ok (h := h4) (p := some s.first) fun a => by
      have := hc a; have := c1 a; have := c2 a; have := c3 a; have := c4 a; simp only [oneOpt]; bomega
    simp only [oneOpt] at c5
    obtain ⟨h6, e6, c6⟩ := free_ok (h := h5) (p := some s.self) fun a => by
      have := hc a; have := c1 a; have := c2 a; have := c3 a; have := c4 a; have := c5 a; simp only [oneOpt]; bomega
    simp only [oneOpt] at c6
    refine ⟨h6, ?_, fun a => ?_⟩
    · simp only [closeDb, deref_ok (show 0 < h.live.count s.self by bomega), e1, e2, e3, e4, e5, e6, Res.ok_bind]
    · have := hc a; have := c1 a; have := c2 a; have := c3 a; have := c4 a; have := c5 a; have := c6 a
      bomega

end EDB
