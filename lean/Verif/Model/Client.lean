import Verif.Model.Iter
import Verif.Spec.Trace

/-!
# A client calling the library

`step` maps the operations of `Spec.Op` to the modelled library functions, `history` runs a list of them and records
what the client observes.
-/

namespace EDB

open Spec (Op Out)

/-- A client's loop `while (embedDBNext(...)) ...` (e.g. /repo/README.md, docs/usageInfo.md): all rows until the
iterator reports the end. -/
def collect (c : Cfg) : Nat → Data → Idx → Iter → Res (Data × Idx × Iter × List (Nat × List Byte))
  | 0, _, _, _ => .fuel
  | f + 1, d, x, it => do
    let (d, x, it, out) ← next c d x it
    match out with
    | none => .ok (d, x, it, [])
    | some r => do
      let (d, x, it, rs) ← collect c f d x it
      .ok (d, x, it, r :: rs)

/-- Open an iterator and read it to the end; a page holds at most `maxRec` records, so the bound is never reached
(which the theorems show). -/
def scanAll (c : Cfg) (d : Data) (x : Idx) (q : Spec.Range) : Res (Data × Idx × List (Nat × List Byte)) := do
  let it ← initIter c d q.minKey q.maxKey q.minData q.maxData
  let (d, x, _, rs) ← collect c ((d.next + 1) * c.maxRec + 1) d x it
  .ok (d, x, rs)

/-- One client operation on a table without variable data. -/
def step (c : Cfg) (d : Data) (x : Idx) : Op → Res (Data × Idx × Out)
  | .put k v => do
    let (d, r, _) ← putD c d k v 0
    .ok (d, x, .code r)
  | .flush => do
    let (d, r, _) ← flushD c d
    .ok (d, x, .code r)
  | .get k => do
    let (d, r, out) ← get c d k
    .ok (d, x, .got r out)
  | .scan q => do
    let (d, x, rs) ← scanAll c d x q
    .ok (d, x, .rows rs)

/-- The observations of a client that performs the operations in order. -/
def history (c : Cfg) : Data → Idx → List Op → Spec.History
  | _, _, [] => []
  | d, x, op :: ops =>
    match step c d x op with
    | .ok (d', x', o) => (op, some o) :: history c d' x' ops
    | _ => [(op, none)]

/-- The state a client's operations lead to. -/
def runOps (c : Cfg) : Data → Idx → List Op → Res (Data × Idx)
  | d, x, [] => .ok (d, x)
  | d, x, op :: ops => do
    let (d, x, _) ← step c d x op
    runOps c d x ops

end EDB
