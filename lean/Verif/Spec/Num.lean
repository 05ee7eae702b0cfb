/-!
# Specification: numbers stored in bytes

Independent of the model: the value of a byte string as positional notation, and two's complement.
-/

namespace Spec

/-- Unsigned little-endian value: the sum of `b_i * 256^i`. -/
def uval (bs : List UInt8) : Nat :=
  ((List.range bs.length).map fun i => (bs.getD i 0).toNat * 256 ^ i).sum

/-- Two's complement value: values from the upper half of the range are negative. -/
def sval (bs : List UInt8) : Int :=
  if uval bs ≥ 2 ^ (8 * bs.length - 1) then (uval bs : Int) - 2 ^ (8 * bs.length) else uval bs

/-- Three-way comparison. -/
def cmp3 (a b : Int) : Int := if a < b then -1 else if b < a then 1 else 0

end Spec
