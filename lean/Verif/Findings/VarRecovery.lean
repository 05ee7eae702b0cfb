import Verif.Findings.Var
import Verif.Model.VarRecover

/-!
# Recovery of variable data: where the code does not meet C49

Counterexamples run on the model: the operations `ops1` on a new table, power failure after the last of them, `embedDBInit`
on the two files, the operations `ops2`.
-/

namespace EDB

open Spec (VOp VOut)

/-- What the operations `ops2` observe; `none`: the table could not be opened. -/
def reopenedV (c : Cfg) (ops1 ops2 : List VOp) : Option (List (Option VOut)) :=
  match runOpsV c (Data.fresh c (fun _ => 0) (fun _ => (0, 0))) noIdx (Var.fresh c (fun _ => 0) false) ops1 with
  | .ok (d, x, v) =>
    match reopenV c d.dev v.dev (fun _ => 0) (fun _ => (0, 0)) (fun _ => 0) false with
    | (d', v', 0) => some ((historyV c d' x v' ops2).map Prod.snd)
    | _ => none
  | _ => none

/-- C49 is false: if the only variable page holds the data of key 0, `embedDBInitVarDataFromFile` takes it for no page at
all (embedDB.c:746-754, page number 0 and key 0), `minVarRecordId` stays at its initial value (the largest number), and the
stored data is reported as reclaimed (result 1).  With key 1 in the place of key 0 the data is found. -/
theorem C49_false_lone_page :
    reopenedV demoV [putB 0 5, putN 2, putB 3 5] [.getVar 0] = some [some (.gotVar 1 (some (dat 0)) none)] ∧
    reopenedV demoV [putB 1 5, putN 2, putB 3 5] [.getVar 1] = some [some (.gotVar 0 (some (dat 1)) (some (blob 5 10)))] := by
  decide +kernel

/-- C49 is false: the variable page written with a data page none of whose records has variable data names key 0 too.  It
is overwritten after the recovery, but the recovery has left it in the read buffer as page 0, so the variable data written
afterwards is read as empty. -/
theorem C49_false_blank_page :
    reopenedV demoV [putN 1, putN 2, putB 3 5] [putB 3 5, putB 4 5, putB 5 5, .getVar 3] =
      some [some (.code 0), some (.code 0), some (.code 0), some (.gotVar 0 (some (dat 3)) (some []))] := by
  decide +kernel

/-- C49 is false once the variable data file has wrapped: recovery sets `minVarRecordId` behind the largest key of the
oldest page kept (embedDB.c:846-850, "We lose some records") instead of the largest key of the pages lost.  The data of record 3 is in the file
and was found before the power failure; afterwards it is reported as reclaimed. -/
theorem C49_false_wrapped :
    let ops := [putB 1 20, putB 2 20, putB 3 20, putB 4 20, putB 5 20, .flush]
    lastV demoW 2 (ops ++ [.getVar 3, .getVar 4]) =
      [some (.gotVar 0 (some (dat 3)) (some (blob 20 30))), some (.gotVar 0 (some (dat 4)) (some (blob 20 40)))] ∧
    reopenedV demoW ops [.getVar 3, .getVar 4] =
      some [some (.gotVar 1 (some (dat 3)) none), some (.gotVar 0 (some (dat 4)) (some (blob 20 40)))] := by
  decide +kernel

/-- The same with the newest page at the end of a block: recovery takes the end of the next block for the oldest page
(as in the data file, C19) and gives up three pages too many: of the four pages kept (records 3 to
6) only the last is still found. -/
theorem C49_false_block_boundary :
    let ops := [putB 1 20, putB 2 20, putB 3 20, putB 4 20, putB 5 20, putB 6 20, .flush]
    reopenedV demoW ops [.getVar 3, .getVar 4, .getVar 5, .getVar 6] =
      some [some (.gotVar 1 (some (dat 3)) none), some (.gotVar 1 (some (dat 4)) none), some (.gotVar 1 (some (dat 5)) none),
        some (.gotVar 0 (some (dat 6)) (some (blob 20 60)))] := by
  decide +kernel

/-- C70 is false if a record lost in a power failure is inserted again, the variable data file having wrapped.  Records 3 and 4
are lost with the write buffer, their variable data was written before; the oldest page kept names key 3, and recovery sets
`minVarRecordId` to 4.  Record 3 is inserted again and flushed (the variable data is now on the newest page of the file), and is
reported as reclaimed.  Records with new keys are found. -/
theorem C70_false_again :
    reopenedV demoW [putB 1 10, putB 2 10, putB 3 40, putB 4 30] [.getVar 3, putB 3 5, putB 4 5, .flush, .getVar 3, .getVar 4] =
      some [some (.gotVar (-1) none none), some (.code 0), some (.code 0), some (.code 0), some (.gotVar 1 (some (dat 3)) none),
        some (.gotVar 0 (some (dat 4)) (some (blob 5 40)))] ∧
    reopenedV demoW [putB 1 10, putB 2 10, putB 3 40, putB 4 30] [putB 5 5, putB 6 5, .flush, .getVar 5, .getVar 6] =
      some [some (.code 0), some (.code 0), some (.code 0), some (.gotVar 0 (some (dat 5)) (some (blob 5 50))),
        some (.gotVar 0 (some (dat 6)) (some (blob 5 60)))] := by
  decide +kernel

end EDB
