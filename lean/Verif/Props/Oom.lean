import Verif.Proofs.Oom
import Verif.Proofs.DemoOk

/-!
# C66: running out of memory

C66.  Whichever requests for memory fail, a client that looks at every pointer it is given and gives up when one is NULL
causes no access through a NULL or freed pointer, and can release everything.

False in general (`Findings/Oom`).  Proved: for at most one projection, aggregation or join over table scans when any
requests fail; for towers of projections and aggregations over one scan or a join of scans when requests fail from some point
on; for all trees when only requests made by the create calls fail.  In each of these at most one block is lost, and none if
no request fails.  For aggregations the client must not call `exec` (it cannot see whether `lastRecordBuffer` is there),
except in the third case.
-/

namespace EDB

open Spec (Heap Tree)

/-- What C66 says about a session. -/
def Survives (m : Mem) (t : Tree) (n : Nat) : Prop :=
  ∃ (m' : Mem) (leak : List Nat), oomSession m t n = .ok m' ∧ m'.heap.live.Perm (leak ++ m.heap.live) ∧
    leak.length ≤ 1 ∧ ((∀ i, m.asked ≤ i → m.gives i = true) → leak = [])

theorem flat_layered {t : Tree} (h : t.flat = true) : t.layered = true := by
  cases t with
  | scan _ => rfl
  | select _ => cases h
  | project t => exact (scan_layered h).1
  | aggregate t => exact (scan_layered h).1
  | join _ t u => exact h

/-- **C66**, any requests fail: at most one operator over table scans. -/
theorem C66_sporadic_partial (m : Mem) (t : Tree) (n : Nat) (hv : t.valid = true) (hf : t.flat = true)
    (hn : n = 0 ∨ t.aggless = true) : Survives m t n := by
  have hn' : ∀ m1 : Mem, n = 0 ∨ t.aggless = true ∨ ∀ i, m1.asked ≤ i → m1.gives i = true := fun m1 =>
    hn.imp id .inl
  rcases buildN_ok t m with ⟨m1, o, e, -⟩ | ⟨m1, L, e, -⟩
  · exact oomSession_mem m t n hv e (.inl ⟨flat_layered hf, .inl hf⟩) (hn' m1)
  · exact oomSession_mem m t n hv e (.inl ⟨flat_layered hf, .inl hf⟩) (hn' m1)

/-- **C66**, requests fail from some point on: projections and aggregations over a scan or over a join of scans. -/
theorem C66_exhausted_partial (m : Mem) (t : Tree) (n : Nat) (hv : t.valid = true) (hl : t.layered = true)
    (hg : ∀ i j, m.asked ≤ i → i ≤ j → m.gives i = false → m.gives j = false)
    (hn : n = 0 ∨ t.aggless = true) : Survives m t n := by
  have hn' : ∀ m1 : Mem, n = 0 ∨ t.aggless = true ∨ ∀ i, m1.asked ≤ i → m1.gives i = true := fun m1 =>
    hn.imp id .inl
  have hg' : ∀ m1 : Mem, m.Later m1 → FineN t m1.gives m1.asked := fun m1 l =>
    .inl ⟨hl, .inr fun i j h1 h2 h3 => by
      rw [l.gives] at h3 ⊢
      exact hg i j (l.asked.trans h1) h2 h3⟩
  rcases buildN_ok t m with ⟨m1, o, e, l, -⟩ | ⟨m1, L, e, l, -⟩
  · exact oomSession_mem m t n hv e (hg' m1 l) (hn' m1)
  · exact oomSession_mem m t n hv e (hg' m1 l) (hn' m1)

/-- **C66**, any requests of the create calls fail: every tree; `exec` may be called. -/
theorem C66_created_partial (m : Mem) (t : Tree) (n : Nat) (hv : t.valid = true)
    (hg : ∀ m1 r, buildN m t = .ok (m1, r) → ∀ i, m1.asked ≤ i → m.gives i = true) : Survives m t n := by
  rcases buildN_ok t m with ⟨m1, o, e, l, -⟩ | ⟨m1, L, e, l, -⟩
  · have := hg m1 _ e
    rw [← l.gives] at this
    exact oomSession_mem m t n hv e (.inr this) (.inr (.inr this))
  · have := hg m1 _ e
    rw [← l.gives] at this
    exact oomSession_mem m t n hv e (.inr this) (.inr (.inr this))

/-- **C66**, no request fails: the client gets as far as calling `exec`. -/
theorem C66_runs (m : Mem) (t : Tree) (hv : t.valid = true) (hg : ∀ i, m.asked ≤ i → m.gives i = true) :
    ∃ m1 o m2 o', buildN m t = .ok (m1, some o) ∧ o.init m1 = .ok (m2, o') ∧ o'.ready = true ∧
      ∀ n, o'.execs m2.heap n = .ok () := by
  rcases buildN_ok t m with ⟨m1, o, e, l, ho, c⟩ | ⟨m1, L, e, l, ⟨i, h1, -, h3⟩, -⟩
  · have hg' : ∀ i, m1.asked ≤ i → m1.gives i = true := fun i h => by
      rw [l.gives]
      exact hg i (l.asked.trans h)
    obtain ⟨m2, o', e2, k, c', o2, -, -, w⟩ := initN_mem o t m1 _ m1.asked ho hv c (Nat.le_refl _) (.inr hg')
    rcases w with w | ⟨i, h1, -, h3⟩
    · exact ⟨m1, o, m2, o', e, e2, w.1, fun n =>
        execsN_mem (nextN_mem o' m2.heap o2 w.1 w.2 fun a => by have := c' a; bomega) n⟩
    · rw [hg' i h1] at h3
      cases h3
  · rw [hg i h1] at h3
    cases h3

/-! ## The hypotheses can be met -/

/-- A projection of a scan and a join of two scans when every third request fails, whichever comes first. -/
example (k n : Nat) : Survives ⟨⟨5, [3, 4]⟩, k, fun i => i % 3 != 0⟩ (.join true (.scan true) (.scan true)) n :=
  C66_sporadic_partial _ _ _ rfl rfl (.inr rfl)

/-- The operators are created, but the columns of the projection's schema cannot be allocated: request 8. -/
def shortOne : Mem := ⟨⟨5, [3, 4]⟩, 0, fun i => i != 8⟩

example : (oomSession shortOne (.project (.scan true)) 7).check (fun m => m.asked == 9 && m.heap.live == [3, 4]) = true := by
  decide +kernel

/-- Whichever request is the last to succeed. -/
example (k n : Nat) : Survives ⟨⟨0, []⟩, 0, fun i => decide (i < k)⟩ (.project (.project (.join true (.scan true) (.scan true)))) n :=
  C66_exhausted_partial _ _ _ rfl rfl (fun i j _ h1 h2 => by
    simp only [decide_eq_false_iff_not, Nat.not_lt] at h2 ⊢
    omega) (.inr rfl)

/-- An aggregation of a selection of a join; the state of the aggregation cannot be allocated. -/
def shortTwo : Mem := ⟨⟨5, [3, 4]⟩, 0, fun i => i != 12⟩

example : Survives shortTwo (.aggregate (.select (.join true (.scan true) (.scan true)))) 3 := by
  refine C66_created_partial _ _ _ rfl fun m1 r e i h => ?_
  have ha : (buildN shortTwo (.aggregate (.select (.join true (.scan true) (.scan true))))).check (fun x => x.1.asked == 13) =
      true := by decide +kernel
  rw [e] at ha
  have : m1.asked = 13 := by simpa [Res.check] using ha
  show (i != 12) = true
  simp only [bne_iff_ne, ne_eq]
  omega

example : (oomSession shortTwo (.aggregate (.select (.join true (.scan true) (.scan true)))) 3).check
    (fun m => m.heap.live == [3, 4]) = true := by decide +kernel

/-- No request fails. -/
example : ∃ m1 o m2 o', buildN ⟨⟨0, []⟩, 0, fun _ => true⟩ (.aggregate (.select (.join true (.scan true) (.scan true)))) =
    .ok (m1, some o) ∧ o.init m1 = .ok (m2, o') ∧ o'.ready = true ∧ ∀ n, o'.execs m2.heap n = .ok () :=
  C66_runs _ _ rfl fun _ _ => rfl

end EDB
