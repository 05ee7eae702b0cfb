import Verif.Model.TableScan
import Verif.Spec.Plan
import Verif.Spec.Stream

/-!
# Building an operator tree

How a client turns a relational expression into operators: `embedDBInitIterator` and `createTableScanOperator` for each
scan, `createSelectionOperator`, `createProjectionOperator`, `createAggregateOperator` with the supplied aggregate
functions, `createKeyJoinOperator`.
-/

namespace EDB

open Spec (AggFn Plan)

/-- The supplied aggregate functions (advancedQueries.c:833, 885, 948, 1013, 1112). -/
def aggOf (s : Schema) : AggFn → Agg AggState
  | .count => countAgg
  | .sum col => sumAgg s col
  | .min col => minAgg s col
  | .max col => maxAgg s col
  | .avg col double quot => avgAgg quot s col (if double then 8 else 4)

/-- The operator tree for a plan, its iterators opened on the tables' states `w`; `none`: `embedDBInitIterator` has
undefined behaviour.  `F` bounds the operators' loops; `a0` and `g` stand for uninitialised memory. -/
def build {T : Type} [DecidableEq T] (cs : T → Cfg) (F : Nat) (a0 : AggState) (g : List Byte) (w : T → Data × Idx) :
    Plan T → Option (Oper (T → Data × Idx))
  | .scan t s q => match initIter (cs t) (w t).1 q.minKey q.maxKey q.minData q.maxData with
    | .ok it => some (tableScan cs t s it)
    | _ => none
  | .select p col op const => (build cs F a0 g w p).map fun o => selection F o col op.code const
  | .project p cols => (build cs F a0 g w p).map fun o => projection o cols
  | .aggregate p same fs => (build cs F a0 g w p).map fun o =>
      aggregate F o (fs.map (aggOf p.schema)) (fs.map fun _ => a0) same
  | .join p q => match build cs F a0 g w p, build cs F a0 g w q with
    | some a, some b => some (keyJoin F a b g)
    | _, _ => none

/-- A client that runs a query: build the operators, then `while (exec(op)) use(op->recordBuffer)` until 0 is returned.
Result: the rows; `none`: undefined behaviour or no end within `F` calls. -/
def runQuery {T : Type} [DecidableEq T] (cs : T → Cfg) (F : Nat) (a0 : AggState) (g : List Byte) (w : T → Data × Idx)
    (p : Plan T) : Option ((T → Data × Idx) × List (List Byte)) :=
  match build cs F a0 g w p with
  | none => none
  | some op => match drain op F w op.start with
    | .ok (w', _, rows, true) => some (w', rows)
    | _ => none

/-- A client that runs queries one after the other. -/
def session {T : Type} [DecidableEq T] (cs : T → Cfg) (F : Nat) (a0 : AggState) (g : List Byte) :
    (T → Data × Idx) → List (Plan T) → List (Option (List (List Byte)))
  | _, [] => []
  | w, p :: ps => match runQuery cs F a0 g w p with
    | some (w', rows) => some rows :: session cs F a0 g w' ps
    | none => [none]

end EDB
