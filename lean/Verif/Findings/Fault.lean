import Verif.Props.Fault

/-! # Where C58 is false of the code -/

namespace EDB

open Spec (MOp MOut FOp Op)

/-- The keys of a scan after `f` has happened to the state reached by `ops`. -/
def scanKeys (c : Cfg) (d : Data) (x : Idx) (ops : List Op) (f : Data → Data) : Option (List Nat) :=
  match runOps c d x ops with
  | .ok (d, x) =>
    match scanAll c (f d) x allRows with
    | .ok (_, _, rs) => some (rs.map (·.1))
    | _ => none
  | _ => none

/-- A client cannot tell a failed read from an absent record: key 3 is present, its page cannot be read, and the result is
the one for key 9, which is not in the table; likewise an iterator reports the end. -/
theorem C58_false_silent :
    let run (o : FOp) := ((fhistory (step demo) demo demo0 noIdx (fun _ => none)
      ((mputs 1 7).map .plain ++ [.plain (.opn 0 allRows), .plain (.nxt 0), .plain (.nxt 0)] ++ [o])).map (·.2)).getLast?
    run (.get 3 [1]) = run (.get 9 []) ∧ run (.nxt 0 [1] []) = some (some (.row none)) ∧
    run (.nxt 0 [] []) = some (some (.row (some (3, dat 3)))) := by decide +kernel

/-- `embedDBPut` does not look at the result of the read in its order check (embedDB.c:1010-1014).  Four records in two
stored pages, page 0 in the read buffer, page 1 unreadable: key 3 is compared with the last key of page 0 and accepted a
second time (it is refused when the read succeeds). -/
theorem C58_false_put :
    let ops : List Op := [.put 1 (dat 1), .put 2 (dat 2), .put 3 (dat 3), .put 4 (dat 4), .flush, .get 1]
    (runOps demo demo0 noIdx ops).check (fun s =>
      (step demo s.1 s.2 (.put 3 (dat 9))).check (fun r => r.2.2 == .code 1) &&
      (step demo (s.1.without [1]) s.2 (.put 3 (dat 9))).check (fun r => r.2.2 == .code 0)) = true ∧
    (runOps demo demo0 noIdx ops).check (fun s =>
      (step demo (s.1.without [1]) s.2 (.put 3 (dat 9))).check (fun r =>
        (scanAll demo { r.1 with dev := s.1.dev } noIdx allRows).check fun t => t.2.2.map (·.1) == [1, 2, 3, 4, 3])) = true := by
  decide +kernel

/-- A read that fails after some of the bytes have arrived leaves them in the buffer, which still counts as holding the
page read before.  Page 0 is in the buffer, the read of page 1 fails half-way: the scan that follows, in which all reads
succeed, returns the records of page 1 in place of those of page 0. -/
theorem C58_false_torn :
    let ops : List Op := [.put 1 (dat 1), .put 2 (dat 2), .put 3 (dat 3), .put 4 (dat 4), .put 5 (dat 5), .get 1]
    scanKeys demo demo0 noIdx ops id = some [1, 2, 3, 4, 5] ∧
    scanKeys demo demo0 noIdx ops (tornRead · 1 16) = some [3, 4, 3, 4, 5] := by
  decide +kernel

end EDB
