import Mathlib.Data.Int.Log
import Mathlib.Data.Rat.Floor
import Mathlib.Algebra.Order.Field.Rat

/-!
# Floating point arithmetic

The result of a floating point operation is the exact result, rounded.  `Rnd b` lists the only facts about rounding that the
theorems use of a format with `b` significant bits (24 for binary32, 53 for binary64, 64 for the x87 format), so they hold for every
rounding mode and also if the compiler evaluates in a wider format (`FLT_EVAL_METHOD`).  `roundTo` is IEEE 754 rounding of a
nonnegative number to `b` significant bits, for a given rounding of numbers to integers.  Overflow and subnormal numbers are not
represented; no value the library computes comes near them (all are 0 or between 2^-64 and 2^65).
-/

namespace Spec

/-- A rounding function of a binary floating point format with at least `b` significant bits. -/
structure Rnd (b : ℕ) where
  /-- the rounding -/
  f : ℚ → ℚ
  /-- rounding keeps the order -/
  mono : ∀ x y, 0 ≤ x → x ≤ y → f x ≤ f y
  /-- numbers with `b` significant bits are represented exactly -/
  rep : ∀ (n : ℕ) (e : ℤ), n ≤ 2 ^ b → -126 ≤ e → e ≤ 100 → f (n * 2 ^ e) = n * 2 ^ e

/-- Rounding of numbers to integers. -/
structure ToInt where
  /-- the rounding -/
  g : ℚ → ℤ
  /-- it keeps the order -/
  mono : Monotone g
  /-- it leaves integers alone -/
  int : ∀ z : ℤ, g z = z

/-- Unit in the last place of a number with `b` significant bits. -/
def ulp (b : ℕ) (x : ℚ) : ℚ := 2 ^ (Int.log 2 x + 1 - b)

/-- Rounding of a nonnegative number to `b` significant bits. -/
def roundTo (b : ℕ) (t : ToInt) (x : ℚ) : ℚ := if x ≤ 0 then 0 else t.g (x / ulp b x) * ulp b x

/-- The nearest integer, and the even one of two equally near. -/
def nearestEven (x : ℚ) : ℤ :=
  if x - ⌊x⌋ < 1 / 2 then ⌊x⌋
  else if x - ⌊x⌋ > 1 / 2 then ⌊x⌋ + 1
  else if ⌊x⌋ % 2 = 0 then ⌊x⌋ else ⌊x⌋ + 1

end Spec
