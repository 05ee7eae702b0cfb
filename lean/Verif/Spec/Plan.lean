import Verif.Spec.Query
import Verif.Spec.Scan

/-!
# Specification: relational expressions

A query is a tree of table scans, selections, projections, aggregations and key joins.  Its meaning is a list of rows
computed from the records of the tables, without operators, cursors or buffers.
-/

namespace Spec

/-- Aggregate functions; the arguments are column numbers. -/
inductive AggFn where
  | count
  | sum (col : Nat)
  | min (col : Nat)
  | max (col : Nat)
  /-- average as a `double` (or else `float`); `quot a b` is the bit pattern of the platform's quotient -/
  | avg (col : Nat) (double : Bool) (quot : Int → Nat → Nat)

/-- Relational expressions over the tables `T`. -/
inductive Plan (T : Type) where
  /-- the records of a table within a range; the schema splits a record into columns, the first being the key -/
  | scan (t : T) (schema : List Int) (q : Range)
  /-- the rows whose column compares with the constant (given as the bytes of a column) -/
  | select (p : Plan T) (col : Nat) (op : CmpOp) (const : List UInt8)
  | project (p : Plan T) (cols : List Nat)
  /-- consecutive rows `a, b` with `same a b` form a group; one output row per group -/
  | aggregate (p : Plan T) (same : List UInt8 → List UInt8 → Bool) (fs : List AggFn)
  /-- pairs of rows with equal first columns -/
  | join (p q : Plan T)

/-- The low `n` bytes of an integer, least significant first, in two's complement. -/
def intBytes (n : Nat) (z : Int) : List UInt8 := (List.range n).map fun i => UInt8.ofNat (z / 256 ^ i % 256).toNat

/-- Signed width of the output column of an aggregate function. -/
def AggFn.size (s : List Int) : AggFn → Int
  | .count => 4
  | .sum _ => -8
  | .min col => s.getD col 0
  | .max col => s.getD col 0
  | .avg _ double _ => if double then 8 else 4

/-- The output column of an aggregate function for a group of rows. -/
def AggFn.cell (s : List Int) (g : List (List UInt8)) : AggFn → List UInt8
  | .count => intBytes 4 g.length
  | .sum col => intBytes 8 (g.map fun r => field s r col).sum
  | .min col => intBytes (s.getD col 0).natAbs ((g.map fun r => field s r col).min?.getD 0)
  | .max col => intBytes (s.getD col 0).natAbs ((g.map fun r => field s r col).max?.getD 0)
  | .avg col double quot => intBytes (if double then 8 else 4) (quot (g.map fun r => field s r col).sum g.length)

/-- The maximal runs of rows. -/
def runs (same : List UInt8 → List UInt8 → Bool) : List (List UInt8) → List (List (List UInt8))
  | [] => []
  | r :: rows => match runs same rows with
    | (x :: g) :: gs => if same r x then (r :: x :: g) :: gs else [r] :: (x :: g) :: gs
    | _ => [[r]]

/-- A record as a row. -/
def row (keySize : Nat) (r : Rec) : List UInt8 := intBytes keySize r.1 ++ r.2

namespace Plan

variable {T : Type}

/-- The columns of the result. -/
def schema : Plan T → List Int
  | scan _ s _ => s
  | select p _ _ _ => p.schema
  | project p cols => cols.map fun c => p.schema.getD c 0
  | aggregate p _ fs => fs.map (AggFn.size p.schema)
  | join p q => p.schema ++ q.schema

/-- The rows of the result.  `tbl t` are the records of table `t`, `ks t` its key width, `cmp t` its data comparison. -/
def rows (tbl : T → List Rec) (ks : T → Nat) (cmp : T → List UInt8 → List UInt8 → Int) : Plan T → List (List UInt8)
  | scan t _ q => (Spec.scan (cmp t) q (tbl t)).map (row (ks t))
  | select p col op const => Spec.select p.schema col op (value (p.schema.getD col 0) const) (rows tbl ks cmp p)
  | project p cols => Spec.project p.schema cols (rows tbl ks cmp p)
  | aggregate p same fs => (runs same (rows tbl ks cmp p)).map fun g => (fs.map (AggFn.cell p.schema g)).flatten
  | join p q => Spec.join (p.schema.getD 0 0).natAbs (rows tbl ks cmp p) (rows tbl ks cmp q)

end Plan

end Spec
