import Verif.Model.Query
import Verif.Spec.Float

/-!
# The division of AVG

`avgAgg` (Model/Query.lean) has what the floating-point unit returns as the parameter `quot`.  This file says what it is.
-/

namespace EDB

open Spec (Rnd)

/-- The type in which an average is computed, and how its numbers are stored: `float` or `double` (advancedQueries.c:1084, 1092). -/
structure FpFormat where
  /-- significant bits: 24 for `float`, 53 for a `double` of 8 bytes -/
  bits : Nat
  /-- rounding of numbers that are not negative -/
  pos : Rnd bits
  /-- rounding of the absolute value of negative numbers (differs from `pos` when rounding up or down) -/
  neg : Rnd bits
  /-- the bytes of a number, as a number -/
  enc : ℚ → Nat

/-- The number in the format that stands for `x`. -/
def FpFormat.rnd (F : FpFormat) (x : ℚ) : ℚ := if x < 0 then -F.neg.f (-x) else F.pos.f x

/-- advancedQueries.c:1083-1089 (`double`) and 1091-1097 (`float`): `sum / (T)count`.  The sum, `int64_t` or `uint64_t`, is converted to
`T` and so is the count, and the quotient is rounded to `T`.  The division in line 1084, overwritten in 1086 or 1088, is left out. -/
def FpFormat.avg (F : FpFormat) (sum : Int) (count : Nat) : ℚ := F.rnd (F.rnd sum / F.rnd count)

/-- advancedQueries.c:1090, 1098: the bytes stored. -/
def FpFormat.quot (F : FpFormat) (sum : Int) (count : Nat) : Nat := F.enc (F.avg sum count)

end EDB
