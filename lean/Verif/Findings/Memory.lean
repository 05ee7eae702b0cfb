import Verif.Props.Memory
import Verif.Proofs.DemoOk

/-!
# C56 and C57 are false in general
-/

namespace EDB

open Spec (Heap Tree)

/-- No memory allocated. -/
def heap0 : Heap := ⟨0, []⟩

/-- `closeAggregate` sets `op->input = NULL` (advancedQueries.c:605), so `embedDBFreeOperatorRecursive` does not find the
operators below: they are never freed. -/
theorem C56_false_aggregate : ¬ ∀ (h : Heap) (t : Tree), t.valid → t.joinless →
    ∃ h', querySession h t 1 1 .recursive = .ok h' ∧ h'.live.Perm h.live := by
  intro H
  obtain ⟨h', e, p⟩ := H heap0 (.aggregate (.scan true)) rfl rfl
  have := p.length_eq
  have hk : (querySession heap0 (.aggregate (.scan true)) 1 1 .recursive).check (fun h => h.live.length == 1) = true := by
    decide +kernel
  rw [e] at hk
  simp only [Res.check, beq_iff_eq] at hk
  rw [hk] at this
  cases this

/-- `embedDBFreeOperatorRecursive` does not free the second input of a join. -/
theorem C56_false_join : ¬ ∀ (h : Heap) (t : Tree), t.valid →
    ∃ h', querySession h t 1 1 .recursive = .ok h' ∧ h'.live.Perm h.live := by
  intro H
  obtain ⟨h', e, p⟩ := H heap0 (.join true (.scan true) (.scan true)) rfl
  have := p.length_eq
  have hk : (querySession heap0 (.join true (.scan true) (.scan true)) 1 1 .recursive).check
      (fun h => h.live.length == 1) = true := by decide +kernel
  rw [e] at hk
  simp only [Res.check, beq_iff_eq] at hk
  rw [hk] at this
  cases this

/-- `initKeyJoin` allocates its record buffer without testing whether there is one (advancedQueries.c:699), unlike the
other operators: a second `init` loses the first buffer. -/
theorem C56_false_reinit : ¬ ∀ (h : Heap) (t : Tree) (k : Nat), t.valid →
    ∃ h', querySession h t k 0 .each = .ok h' ∧ h'.live.Perm h.live := by
  intro H
  obtain ⟨h', e, p⟩ := H heap0 (.join true (.scan true) (.scan true)) 2 rfl
  have := p.length_eq
  have hk : (querySession heap0 (.join true (.scan true) (.scan true)) 2 0 .each).check
      (fun h => h.live.length == 1) = true := by decide +kernel
  rw [e] at hk
  simp only [Res.check, beq_iff_eq] at hk
  rw [hk] at this
  cases this

/-- `init` has no return value.  A table scan whose schema does not fit the table gets no record buffer, and `exec` then
writes through NULL. -/
theorem C56_false_schema : querySession heap0 (.scan false) 1 1 .each = .ub := rfl

/-- A join of inputs with incompatible keys gets no schema, and the `init` of a selection above it reads through NULL. -/
theorem C56_false_keys : querySession heap0 (.select (.join false (.scan true) (.scan true))) 1 0 .each = .ub := rfl

/-- Closing an aggregation a second time reads through the NULL input; closing a selection over a scan a second time does
nothing. -/
theorem C56_false_close_twice :
    (do let (h, o) := buildOps heap0 (.aggregate (.scan true))
        let (h, o) ← o.close h
        o.close h : Res (Heap × OpNode)).check (fun _ => true) = false ∧
    (do let (h, o) := buildOps heap0 (.select (.scan true))
        let (h, o) ← o.close h
        o.close h : Res (Heap × OpNode)).check (fun _ => true) = true := by
  constructor <;> decide +kernel

/-- Freeing an initialised aggregation without closing it loses its last-record buffer. -/
theorem C56_false_unclosed :
    (do let (h, o) := buildOps heap0 (.aggregate (.scan true))
        let (h, o) ← o.init h
        o.freeRec h : Res Heap).check (fun h => h.live.length == 1) = true := by decide +kernel

/-- When `embedDBInit` fails after allocating the spline (a file cannot be opened, or there are too few buffers for an index
or variable data) it returns an error and the spline's six blocks remain. -/
theorem C57_false_init : ¬ ∀ (h : Heap) (binary ok : Bool) (ops : List ItOp),
    ∃ h', dbSession h binary ok ops = .ok h' ∧ h'.live.Perm h.live := by
  intro H
  obtain ⟨h', e, p⟩ := H heap0 false false []
  have := p.length_eq
  have hk : (dbSession heap0 false false []).check (fun h => h.live.length == 6) = true := by decide +kernel
  rw [e] at hk
  simp only [Res.check, beq_iff_eq] at hk
  rw [hk] at this
  cases this

/-- `embedDBCloseIterator` does not reset the pointer: closing an iterator twice frees its bitmap twice. -/
theorem C57_false_iterator_twice :
    (do let (h, it) := openIt heap0 true
        let h ← closeIt h it
        closeIt h it : Res Heap) = .ub := rfl

end EDB
