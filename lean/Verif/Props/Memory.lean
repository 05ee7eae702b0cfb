import Verif.Proofs.Memory
import Verif.Proofs.DemoOk

/-!
# C56, C57: memory

C56.  A client that creates operators, calls `init`, `exec` any number of times and `close`, and frees the operators as the
documentation describes, never accesses or frees a block that is not allocated, and afterwards exactly the blocks that were
allocated before are still allocated.

False in general (`Findings/Memory`): `embedDBFreeOperatorRecursive` loses the operators below an aggregation and the second
input of a join; a second `init` of a join loses a buffer; schemas that do not fit make `init` or `exec` access NULL.  Proved:
all of it for selections and projections over a scan; for every tree when the client frees each operator itself; for every
tree freed recursively, that nothing else than the operators named above is lost.

C57.  A client that opens a database, opens and closes iterators in any order and closes the database leaves no block behind.
False when `embedDBInit` fails after allocating the spline; proved for successful calls.
-/

namespace EDB

open Spec (Heap Tree)

/-- **C56**, selections and projections over a scan, freed with `embedDBFreeOperatorRecursive`. -/
theorem C56_chain_partial (h : Heap) (t : Tree) (k n : Nat) (ht : t.chain) (hv : t.valid) (hn : n = 0 ∨ 0 < k) :
    ∃ h', querySession h t k n .recursive = .ok h' ∧ h'.live.Perm h.live := by
  have hj : ∀ t : Tree, t.chain → t.joinless ∧ t.hidden = 0 := by
    intro t
    induction t with
    | scan _ => exact fun _ => ⟨rfl, rfl⟩
    | select t ih => exact ih
    | project t ih => exact ih
    | aggregate t ih => exact fun h => by cases h
    | join _ _ _ _ _ => exact fun h => by cases h
  obtain ⟨h1, o1, e, hcl, hc, hl⟩ := session_close h t k n hv (.inl (hj t ht).1) hn
  obtain ⟨h2, e2, c2⟩ := freeRec_mem o1 h1 _ hcl hc
  refine ⟨h2, ?_, ?_⟩
  · unfold querySession
    exact (e _).trans e2
  · rw [(hj t ht).2, List.length_eq_zero_iff] at hl
    refine List.perm_iff_count.2 fun a => ?_
    rw [c2 a, hl]
    simp

/-- **C56**, any tree whose operators the client frees one by one; joins are initialised at most once. -/
theorem C56_each_partial (h : Heap) (t : Tree) (k n : Nat) (hv : t.valid) (hk : t.joinless ∨ k ≤ 1) (hn : n = 0 ∨ 0 < k) :
    ∃ h', querySession h t k n .each = .ok h' ∧ h'.live.Perm h.live := by
  obtain ⟨h1, o1, e, hcl, hc, hl⟩ := session_close h t k n hv hk hn
  obtain ⟨h2, e2, c2⟩ := freeEach_mem o1 h1 _ hc
  refine ⟨h2, ?_, List.perm_iff_count.2 c2⟩
  unfold querySession
  exact (e _).trans e2

/-- **C56**, any tree freed with `embedDBFreeOperatorRecursive`: no invalid access or `free`; what is left allocated is one
block for each operator below an aggregation or in the second input of a join. -/
theorem C56_recursive_partial (h : Heap) (t : Tree) (k n : Nat) (hv : t.valid) (hk : t.joinless ∨ k ≤ 1)
    (hn : n = 0 ∨ 0 < k) :
    ∃ h' left, querySession h t k n .recursive = .ok h' ∧ h'.live.Perm (left ++ h.live) ∧ left.length = t.hidden := by
  obtain ⟨h1, o1, e, hcl, hc, hl⟩ := session_close h t k n hv hk hn
  obtain ⟨h2, e2, c2⟩ := freeRec_mem o1 h1 _ hcl hc
  refine ⟨h2, o1.lost, ?_, ?_, hl⟩
  · unfold querySession
    exact (e _).trans e2
  · exact List.perm_iff_count.2 fun a => by rw [c2 a, List.count_append]

/-- **C57**, when `embedDBInit` succeeds. -/
theorem C57_partial (h : Heap) (binary : Bool) (ops : List ItOp) :
    ∃ h', dbSession h binary true ops = .ok h' ∧ h'.live.Perm h.live := by
  have hc := initSpl_count h binary
  obtain ⟨h1, its, e1, c1⟩ := itOps_ok (fun a => oneSpl (initSpl h binary).2 a + h.live.count a) ops (initSpl h binary).1 []
    fun a => by have := hc a; simp only [List.map_nil, List.sum_nil]; omega
  obtain ⟨h2, e2, c2⟩ := closeIts_ok _ its h1 c1
  obtain ⟨h3, e3, c3⟩ := closeDb_ok (h := h2) (initSpl h binary).2 (fun a => h.live.count a) c2
  refine ⟨h3, ?_, List.perm_iff_count.2 c3⟩
  simp only [dbSession, initDb, if_true, ne_eq, not_true, if_false, e1, e2, e3, Res.ok_bind]

/-! ## The hypotheses can be met -/

/-- A projection of a selection of a scan, initialised twice, run five times. -/
example : ∃ h', querySession ⟨7, [3, 5]⟩ (.project (.select (.scan true))) 2 5 .recursive = .ok h' ∧
    h'.live.Perm [3, 5] := C56_chain_partial _ _ 2 5 rfl rfl (.inr (by decide))

/-- The same session allocates: after `init` fifteen blocks more are live. -/
example : ((buildOps ⟨7, [3, 5]⟩ (.project (.select (.scan true)))).2.inits
    (buildOps ⟨7, [3, 5]⟩ (.project (.select (.scan true)))).1 2).check (fun r => r.1.live.length == 17) = true := by
  decide +kernel

/-- An aggregation over a join of two scans, freed one by one. -/
example : ∃ h', querySession ⟨7, [3, 5]⟩ (.aggregate (.join true (.scan true) (.select (.scan true)))) 1 4 .each = .ok h' ∧
    h'.live.Perm [3, 5] := C56_each_partial _ _ 1 4 rfl (.inr (by decide)) (.inr (by decide))

/-- The same, freed recursively: four operators are lost. -/
example : ∃ h' left, querySession ⟨7, [3, 5]⟩ (.aggregate (.join true (.scan true) (.select (.scan true)))) 1 4 .recursive =
    .ok h' ∧ h'.live.Perm (left ++ [3, 5]) ∧ left.length = 4 :=
  C56_recursive_partial _ _ 1 4 rfl (.inr (by decide)) (.inr (by decide))

/-- Three iterators, closed out of order. -/
example : ∃ h', dbSession ⟨7, [3, 5]⟩ false true [.opn true, .opn false, .opn true, .cls 2, .cls 0] = .ok h' ∧
    h'.live.Perm [3, 5] := C57_partial _ _ _

end EDB
