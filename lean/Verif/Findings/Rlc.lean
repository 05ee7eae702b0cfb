import Verif.Props.Rlc

/-!
# Properties of record-level consistency that are false of the code
-/

namespace EDB

open Spec (Log Op Out)

/-- The demo table when it is new. -/
def demoR0 : Data := Data.fresh demoR (fun _ => 0) fun _ => (0, 0)

/-- Inserts of two records (a full page), each pair followed by a flush. -/
def pairsR (n : Nat) : List Op :=
  (List.range n).flatMap fun i => [.put (2 * i + 1) (datR (2 * i + 1)), .put (2 * i + 2) (datR (2 * i + 2)), .flush]

/-- Executable version of the erase part of `Spec.KeepsPermanent`: no erase covers a permanent page written before and
still counted as retained by the number of pages written when it happens. -/
def eraseSpares (N B : Nat) : Nat → List Ev → Bool
  | _, [] => true
  | n, .write ph p :: t => if pageId p % N = ph then eraseSpares N B (n + 1) t else eraseSpares N B n t
  | n, .erase lo hi :: t =>
    (List.range n).all (fun l => decide (l < Spec.rlcDropped N B n) || !(decide (lo ≤ l % N) && decide (l % N < hi))) && eraseSpares N B n t

theorem eraseSpares_of : ∀ (log : List Ev) (N B n : Nat), Spec.KeepsPermanent N B n log → eraseSpares N B n log = true := by
  intro log
  induction log with
  | nil => intro N B n _; rfl
  | cons e t ih =>
    intro N B n h
    cases e with
    | write ph p =>
      simp only [eraseSpares]
      rw [pageId_spec]
      rcases h with ⟨h1, _, h3⟩ | ⟨h1, _, h3⟩
      · rw [if_pos h1]; exact ih _ _ _ h3
      · rw [if_neg h1]; exact ih _ _ _ h3
    | erase lo hi =>
      obtain ⟨h1, h2⟩ := h
      simp only [eraseSpares, Bool.and_eq_true]
      refine ⟨?_, ih _ _ _ h2⟩
      rw [List.all_eq_true]
      intro l hl
      have hl' := List.mem_range.mp hl
      by_cases hd : l < Spec.rlcDropped N B n
      · simp [hd]
      · have := h1 l ⟨hl', by omega⟩
        simp only [hd, decide_false, Bool.false_or, Bool.not_eq_true', Bool.and_eq_false_iff, decide_eq_false_iff_not]
        omega

/-- C21 is false: `embedDBFlush` (embedDB.c:1667-1722) never moves the temporary area, so once a flush has written the last page
of a block the following permanent pages go into the area.  Eight records in four flushed pages, no power failure, nothing wrapped
(eight pages, minimum page 0): the history of storage operations erases a retained page ... -/
theorem C21_false_flush : ((runOps demoR demoR0 noIdx (pairsR 4)).check fun (d, _) =>
    d.next = 4 ∧ d.min = 0 ∧ !eraseSpares 8 2 0 d.dev.log) = true := by
  decide +kernel

/-- ... so `Spec.KeepsPermanent` fails ... -/
theorem C21_false_flush_spec : ∃ d x, runOps demoR demoR0 noIdx (pairsR 4) = .ok (d, x) ∧ ¬ Spec.KeepsPermanent 8 2 0 d.dev.log := by
  obtain ⟨⟨d, x⟩, h1, h2⟩ := Res.check_ok C21_false_flush
  refine ⟨d, x, h1, ?_⟩
  intro h
  have := eraseSpares_of _ _ _ _ h
  simp only [this] at h2
  simp at h2

/-- ... the two records of that page, acknowledged and flushed, are no longer found ... -/
theorem C21_false_flush_lost : history demoR demoR0 noIdx (pairsR 4 ++ [.get 1, .get 5, .get 6, .get 7]) =
    history demoR demoR0 noIdx (pairsR 4) ++ [(.get 1, some (.got 0 (some (datR 1)))), (.get 5, some (.got (-1) none)),
      (.get 6, some (.got (-1) none)), (.get 7, some (.got 0 (some (datR 7))))] ∧
    ∀ p ∈ history demoR demoR0 noIdx (pairsR 4), p.2 = some (.code 0) := by
  constructor
  · decide +kernel
  · decide +kernel

/-- ... and C20 is false with such flushes: after power fails (no operation cut off) recovery finds two pages and none of the
records 5 to 8, all of them acknowledged. -/
theorem C20_false_flush : ((runOps demoR demoR0 noIdx (pairsR 3 ++ [.put 7 (datR 7), .put 8 (datR 8)])).check fun (d, _) =>
    let r := recover demoR d.dev (fun _ => 0) fun _ => (0, 0)
    d.next = 3 ∧ r.2 = 0 ∧ r.1.next = 2 ∧ r.1.min = 0 ∧
    history demoR r.1 noIdx [.get 4, .get 5, .get 6, .get 7, .get 8] =
      [(.get 4, some (.got 0 (some (datR 4)))), (.get 5, some (.got (-1) none)), (.get 6, some (.got (-1) none)),
        (.get 7, some (.got (-1) none)), (.get 8, some (.got (-1) none))]) = true := by
  decide +kernel

/-- C20 is false for lookups after recovery and further inserts: recovery of a file without permanent pages leaves the read cache on the
temporary page it found (embedDB.c:519-521; page 2 here) and nothing resets it when a permanent page is written
there.  One insert, a power failure, recovery, six more inserts: records 5 and 6 are not found although their inserts
returned 0 and their page is stored. -/
theorem C20_false_stale_cache : ((runOps demoR demoR0 noIdx [.put 1 (datR 1)]).check fun (d, _) =>
    let r := recover demoR d.dev (fun _ => 0) fun _ => (0, 0)
    r.2 = 0 ∧ r.1.next = 0 ∧ r.1.buffered = some 2 ∧
    history demoR r.1 noIdx (((List.range 6).map fun i => .put (i + 2) (datR (i + 2))) ++ [.get 5, .get 6, .get 7]) =
      ((List.range 6).map fun i => (.put (i + 2) (datR (i + 2)), some (.code 0))) ++
      [(.get 5, some (.got (-1) none)), (.get 6, some (.got (-1) none)),
        (.get 7, some (.got 0 (some (datR 7))))]) = true := by
  decide +kernel

end EDB
