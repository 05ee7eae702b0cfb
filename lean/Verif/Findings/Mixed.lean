import Verif.Props.Mixed

/-! # Where C55 is false of the code -/

namespace EDB

open Spec (MOp MOut)

/-- An open iterator is not told that its page is reclaimed.  Six records, an iterator is opened, five more inserts drop
and overwrite the page it stands on: it delivers the newest records 9 and 10 first, then the dropped records 3 and 4, then
the rest, with 9 and 10 a second time. -/
theorem C55_false_reclaimed :
    let run := mputs 1 6 ++ [.opn 0 allRows] ++ mputs 7 5 ++ List.replicate 12 (.nxt 0)
    MClient demo 0 1000 run ∧
    MSafe (fun d _ o => completes demo d o → d.buffered ≠ some (d.next % demo.N)) (step demo) demo demo0 noIdx (fun _ => none) run ∧
    delivered (mhistory (step demo) demo demo0 noIdx (fun _ => none) run) = [9, 10, 3, 4, 5, 6, 7, 8, 9, 10, 11, 0] := by
  refine ⟨mclient_of (by decide +kernel) (by decide +kernel), ?_, by decide +kernel⟩
  refine msafe_ok (g := fun d _ o => match o with
    | .put _ _ => decide (pageCount d.wbuf ≥ demo.maxRec → d.buffered ≠ some (d.next % demo.N))
    | .flush => decide (pageCount d.wbuf ≠ 0 → d.buffered ≠ some (d.next % demo.N))
    | _ => true) ?_ _ _ _ _ (by decide +kernel)
  intro d x o h
  cases o with
  | put k v => simp only [decide_eq_true_eq] at h; exact h
  | flush => simp only [decide_eq_true_eq] at h; exact h
  | get k => intro h; cases h
  | scan q => intro h; cases h

/-- An iterator that has once reported the end and is advanced again after further inserts skips records: it delivered 3
from the write buffer, record 4 went into the same page, the iterator resumes with the page after it. -/
theorem C55_false_resume :
    let run := mputs 1 3 ++ [.opn 0 allRows] ++ List.replicate 4 (.nxt 0) ++ mputs 4 2 ++ List.replicate 2 (.nxt 0)
    MClient demo 0 1000 run ∧
    delivered (mhistory (step demo) demo demo0 noIdx (fun _ => none) run) = [1, 2, 3, 0, 5, 0] :=
  ⟨mclient_of (by decide +kernel) (by decide +kernel), by decide +kernel⟩

end EDB
