import Mathlib.Algebra.Order.Field.Rat

/-! # Specification of AVG: the arithmetic mean. -/

namespace Spec

/-- The arithmetic mean of a list of integers. -/
def mean (l : List ℤ) : ℚ := (l.sum : ℚ) / l.length

end Spec
