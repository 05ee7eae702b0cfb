import Verif.Spec.Num

/-!
# Specification: relational operators on rows of bytes

Rows are byte strings; a schema gives each column a signed width (negative = two's complement, as in
`schema.h`).  Nothing here mentions the operators' implementation.
-/

namespace Spec

/-- Cut a row into its columns. -/
def columns : List Int → List UInt8 → List (List UInt8)
  | [], _ => []
  | w :: ws, row => row.take w.natAbs :: columns ws (row.drop w.natAbs)

/-- Total number of bytes of a row. -/
def width (schema : List Int) : Nat := (schema.map Int.natAbs).sum

/-- The number stored in a column of signed width `w`. -/
def value (w : Int) (bytes : List UInt8) : Int := if w < 0 then sval bytes else uval bytes

/-- The number in column `col` of a row. -/
def field (schema : List Int) (row : List UInt8) (col : Nat) : Int :=
  value (schema.getD col 0) ((columns schema row).getD col [])

/-- The six selection operators (their codes are `SELECT_GT` 0 .. `SELECT_NEQ` 5). -/
inductive CmpOp | gt | lt | gte | lte | eq | neq

namespace CmpOp

/-- The constants of advancedQueries.h. -/
def code : CmpOp → Nat
  | gt => 0 | lt => 1 | gte => 2 | lte => 3 | eq => 4 | neq => 5

/-- Meaning. -/
def holds (a b : Int) : CmpOp → Bool
  | gt => decide (a > b) | lt => decide (a < b) | gte => decide (a ≥ b)
  | lte => decide (a ≤ b) | eq => decide (a = b) | neq => decide (a ≠ b)

end CmpOp

/-- `SELECT * WHERE col op const`. -/
def select (schema : List Int) (col : Nat) (op : CmpOp) (const : Int) (rows : List (List UInt8)) : List (List UInt8) :=
  rows.filter fun r => op.holds (field schema r col) const

/-- `SELECT cols`. -/
def project (schema : List Int) (cols : List Nat) (rows : List (List UInt8)) : List (List UInt8) :=
  rows.map fun r => (cols.map fun c => (columns schema r).getD c []).flatten

/-- `groups` are the maximal runs of `rows` in which each row is in the same group as the row before it. -/
def IsGrouping (same : List UInt8 → List UInt8 → Bool) (rows : List (List UInt8))
    (groups : List (List (List UInt8))) : Prop :=
  groups.flatten = rows ∧ (∀ g ∈ groups, g ≠ []) ∧
  (∀ g ∈ groups, ∀ l a b r, g = l ++ a :: b :: r → same a b = true) ∧
  (∀ l g h r, groups = l ++ g :: h :: r → ∀ a b, g.getLast? = some a → h.head? = some b → same a b = false)

/-- Unsigned value of the first `n` bytes: the key column. -/
def key (n : Nat) (row : List UInt8) : Nat := uval (row.take n)

/-- Equijoin on the key column, by nested loops. -/
def join (n : Nat) (as bs : List (List UInt8)) : List (List UInt8) :=
  as.flatMap fun a => (bs.filter fun b => key n a = key n b).map fun b => a ++ b

/-- Strictly ascending by key. -/
def Ascending (n : Nat) (rows : List (List UInt8)) : Prop := rows.Pairwise fun a b => key n a < key n b

end Spec
