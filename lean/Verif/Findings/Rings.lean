import Verif.Findings.Recovery
import Verif.Findings.Table
import Verif.Props.Rings

/-!
# C67 is false of the data and the index file when a request is refused

`writePage` and `writeIndexPage` count the page before they know whether the device takes it (embedDB.c:2000, 2132).  One refused
write shifts all later erases off the block boundaries, until one reaches beyond the end of the file.
-/

namespace EDB

/-- Full pages of records. -/
def onlyPuts (n : Nat) : List Spec.Op := (List.range n).map fun i => Spec.Op.put (10 * i + 5) (dat (UInt8.ofNat i))

theorem not_goodRing {N B : Nat} {log : List Ev} {f : Nat → Option Page} {lo hi : Nat} (h : (false, lo, hi) ∈ places log)
    (hh : N < hi) : ¬ Spec.GoodRing N B log f := by
  intro g
  obtain ⟨e, he, h1⟩ := List.mem_map.mp h
  cases e with
  | write p q => simp at h1
  | erase a b =>
    simp only [Prod.mk.injEq, true_and] at h1
    have := (g.blocks a b he).2.2
    omega

/-- C67 is false of the data file of a device that refuses one write: of four pages, page "4" is erased. -/
theorem C67_false_data : ∃ d x, runOpsX flaky demo0 noIdx (onlyPuts 18) = .ok (d, x) ∧
    places d.dev.log = [(true, 1, 2), (true, 2, 3), (true, 3, 4), (true, 0, 1), (false, 1, 3), (true, 1, 2), (true, 2, 3),
      (false, 3, 5), (true, 3, 4)] ∧ flaky.N = 4 ∧ ¬ Spec.GoodRing flaky.N flaky.B d.dev.log d.dev.file := by
  have h : (runOpsX flaky demo0 noIdx (onlyPuts 18)).check (fun (d, _) => places d.dev.log = [(true, 1, 2), (true, 2, 3), (true, 3, 4),
      (true, 0, 1), (false, 1, 3), (true, 1, 2), (true, 2, 3), (false, 3, 5), (true, 3, 4)]) = true := by decide +kernel
  obtain ⟨⟨d, x⟩, h1, h2⟩ := Res.check_ok h
  simp only [decide_eq_true_eq] at h2
  exact ⟨d, x, h1, h2, rfl, not_goodRing (lo := 3) (hi := 5) (by rw [h2]; decide) (by decide)⟩

/-- A table with an index file of four pages on a device that refuses the first write. -/
def flakyIdx : Cfg := { trio with N := 64, ioOk := fun n => n != 0 }

/-- C67 is false of the index file of such a device. -/
theorem C67_false_index : ∃ d x,
    runOpsX flakyIdx (trio0 flakyIdx).d (trio0 flakyIdx).x ((onlyPuts 9).flatMap fun o => [o, .flush]) = .ok (d, x) ∧
    places x.dev.log = [(true, 1, 2), (true, 2, 3), (true, 3, 4), (true, 0, 1), (false, 1, 3), (true, 1, 2), (true, 2, 3),
      (false, 3, 5), (true, 3, 4), (true, 0, 1)] ∧ flakyIdx.numIdx = 4 ∧
    ¬ Spec.GoodRing flakyIdx.numIdx flakyIdx.B x.dev.log x.dev.file := by
  have h : (runOpsX flakyIdx (trio0 flakyIdx).d (trio0 flakyIdx).x ((onlyPuts 9).flatMap fun o => [o, .flush])).check
      (fun (_, x) => places x.dev.log = [(true, 1, 2), (true, 2, 3), (true, 3, 4), (true, 0, 1), (false, 1, 3), (true, 1, 2),
        (true, 2, 3), (false, 3, 5), (true, 3, 4), (true, 0, 1)]) = true := by decide +kernel
  obtain ⟨⟨d, x⟩, h1, h2⟩ := Res.check_ok h
  simp only [decide_eq_true_eq] at h2
  exact ⟨d, x, h1, h2, rfl, not_goodRing (lo := 3) (hi := 5) (by rw [h2]; decide) (by decide)⟩

/-! ### Record-level consistency -/

theorem not_erasedFirst {log : List Ev} (h : erasedFirst (fun _ => false) log = false) : ¬ Spec.ErasedFirst (fun _ => False) log := by
  intro g
  have := (erasedFirst_iff log (fun _ => false)).mpr (by simpa using g)
  rw [h] at this; cases this

/-- Blocks of one page. -/
def demoR1 : Cfg := { demoR with B := 1, N := 4 }

/-- With blocks of one page and record-level consistency, temporary and permanent pages overwrite pages that were not erased: the
block is erased when its second page is about to be written (embedDB.c:2065), and it has none. -/
theorem C67_false_rlc_one : ∃ d x, runOpsX demoR1 (trio0 demoR1).d (trio0 demoR1).x (onlyPuts 6) = .ok (d, x) ∧
    demoR1.N = 4 * demoR1.B ∧ ¬ Spec.ErasedFirst (fun _ => False) d.dev.log := by
  have h : (runOpsX demoR1 (trio0 demoR1).d (trio0 demoR1).x (onlyPuts 6)).check
      (fun (d, _) => !erasedFirst (fun _ => false) d.dev.log) = true := by decide +kernel
  obtain ⟨⟨d, x⟩, h1, h2⟩ := Res.check_ok h
  exact ⟨d, x, h1, rfl, not_erasedFirst (by simpa using h2)⟩

/-- A flush that completes a block does not move the temporary area (`C20_false_flush`): the next permanent page is written
over a temporary page that was not erased. -/
theorem C67_false_rlc_flush : ∃ d x,
    runOpsX demoR (trio0 demoR).d (trio0 demoR).x (onlyPuts 4 ++ [.flush] ++ (onlyPuts 8).drop 4) = .ok (d, x) ∧
    ¬ Spec.ErasedFirst (fun _ => False) d.dev.log := by
  have h : (runOpsX demoR (trio0 demoR).d (trio0 demoR).x (onlyPuts 4 ++ [.flush] ++ (onlyPuts 8).drop 4)).check
      (fun (d, _) => !erasedFirst (fun _ => false) d.dev.log) = true := by decide +kernel
  obtain ⟨⟨d, x⟩, h1, h2⟩ := Res.check_ok h
  exact ⟨d, x, h1, not_erasedFirst (by simpa using h2)⟩

end EDB
