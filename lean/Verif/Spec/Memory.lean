import Verif.Model.Bytes

/-!
# Specification: allocated blocks and query trees

The C heap, seen only through the set of blocks that are currently allocated: `malloc` hands out a block never handed
out before, `free` of anything but a currently allocated block (or NULL) is undefined behaviour, and so is an access
through a pointer that does not point into an allocated block.
-/

namespace Spec

/-- The blocks allocated and not yet freed; blocks are numbered in the order of their allocation, so that `fresh` and all
later numbers have not been handed out. -/
structure Heap where
  fresh : Nat
  live : List Nat

/-- The trees of operators a client can build.  `fits`: the schema given for the table matches the table's key and data
size (and has at least two columns and an unsigned key).  `keys`: the first columns of the two inputs have the same size
and are unsigned. -/
inductive Tree where
  | scan (fits : Bool)
  | select (t : Tree)
  | project (t : Tree)
  | aggregate (t : Tree)
  | join (keys : Bool) (t u : Tree)

/-- Number of operators. -/
def Tree.ops : Tree → Nat
  | .scan _ => 1
  | .select t => t.ops + 1
  | .project t => t.ops + 1
  | .aggregate t => t.ops + 1
  | .join _ t u => t.ops + u.ops + 1

/-- Selections and projections over a scan. -/
def Tree.chain : Tree → Bool
  | .scan _ => true
  | .select t => t.chain
  | .project t => t.chain
  | .aggregate _ => false
  | .join _ _ _ => false

/-- No join in the tree. -/
def Tree.joinless : Tree → Bool
  | .scan _ => true
  | .select t => t.joinless
  | .project t => t.joinless
  | .aggregate t => t.joinless
  | .join _ _ _ => false

/-- Every schema given for a table matches the table, and every join is over compatible keys. -/
def Tree.valid : Tree → Bool
  | .scan fits => fits
  | .select t => t.valid
  | .project t => t.valid
  | .aggregate t => t.valid
  | .join keys t u => keys && t.valid && u.valid

/-- Number of operators below an aggregation or in the second input of a join. -/
def Tree.hidden : Tree → Nat
  | .scan _ => 0
  | .select t => t.hidden
  | .project t => t.hidden
  | .aggregate t => t.ops
  | .join _ t u => t.hidden + u.ops

/-- A table scan. -/
def Tree.isScan : Tree → Bool
  | .scan _ => true
  | _ => false

/-- No selection, and the inputs of joins are table scans. -/
def Tree.layered : Tree → Bool
  | .scan _ => true
  | .select _ => false
  | .project t => t.layered
  | .aggregate t => t.layered
  | .join _ t u => t.isScan && u.isScan

/-- At most one operator over table scans, no selection. -/
def Tree.flat : Tree → Bool
  | .scan _ => true
  | .select _ => false
  | .project t => t.isScan
  | .aggregate t => t.isScan
  | .join _ t u => t.isScan && u.isScan

/-- No aggregation in the tree. -/
def Tree.aggless : Tree → Bool
  | .scan _ => true
  | .select t => t.aggless
  | .project t => t.aggless
  | .aggregate _ => false
  | .join _ t u => t.aggless && u.aggless

end Spec
