import Verif.Model.Client
import Verif.Spec.Cursor

/-! A client with several open iterators on one table (all share the table's read buffer). -/

namespace EDB

open Spec (ROp ROut setAt)

/-- One read operation. -/
def rstep (c : Cfg) (d : Data) (x : Idx) (its : Nat → Option Iter) : ROp → Res (Data × Idx × (Nat → Option Iter) × ROut)
  | .get k => do
    let (d, r, out) ← get c d k
    .ok (d, x, its, .got (.got r out))
  | .opn i q => do
    let it ← initIter c d q.minKey q.maxKey q.minData q.maxData
    .ok (d, x, setAt its i (some it), .opened)
  | .nxt i =>
    match its i with
    | none => .ub
    | some it => do
      let (d, x, it, out) ← next c d x it
      .ok (d, x, setAt its i (some it), .row out)

/-- The observations of a client that performs the read operations in order. -/
def rhistory (c : Cfg) : Data → Idx → (Nat → Option Iter) → List ROp → List (ROp × Option ROut)
  | _, _, _, [] => []
  | d, x, its, op :: ops =>
    match rstep c d x its op with
    | .ok (d', x', its', o) => (op, some o) :: rhistory c d' x' its' ops
    | _ => [(op, none)]

end EDB
