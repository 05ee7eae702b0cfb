import Verif.Model.Index
import Verif.Spec.Mixed

/-!
# A client that keeps iterators open while it inserts

The iterator holds only a position and the bounds (embedDB.h:253-261); nothing in `embedDBPut` or `embedDBFlush` knows of
it (embedDB.c:1004-1127, 1667-1722).  All iterators share the read buffers of the table.
-/

namespace EDB

open Spec (MOp MOut Op Out setAt)

/-- One operation; `stp` is the client step on tables without (`step`) or with (`stepX`) an index file.
Advancing an iterator that was never initialised is undefined behaviour. -/
def mstep (stp : Data → Idx → Op → Res (Data × Idx × Out)) (c : Cfg) (d : Data) (x : Idx) (its : Nat → Option Iter) :
    MOp → Res (Data × Idx × (Nat → Option Iter) × MOut)
  | .op o => do
    let (d, x, out) ← stp d x o
    .ok (d, x, its, .out out)
  | .opn i q => do
    let it ← initIter c d q.minKey q.maxKey q.minData q.maxData
    .ok (d, x, setAt its i (some it), .opened)
  | .nxt i =>
    match its i with
    | none => .ub
    | some it => do
      let (d, x, it, out) ← next c d x it
      .ok (d, x, setAt its i (some it), .row out)

/-- The observations of a client that performs the operations in order. -/
def mhistory (stp : Data → Idx → Op → Res (Data × Idx × Out)) (c : Cfg) :
    Data → Idx → (Nat → Option Iter) → List MOp → List (MOp × Option MOut)
  | _, _, _, [] => []
  | d, x, its, op :: ops =>
    match mstep stp c d x its op with
    | .ok (d', x', its', o) => (op, some o) :: mhistory stp c d' x' its' ops
    | _ => [(op, none)]

end EDB
