/-!
# Specification: bisection that gives up on one element

`Inspected first last t`: a bisection of the interval `[first, last]` for position `t` looks at `t` while the interval
still has at least two elements.
-/

namespace Spec

inductive Inspected : Nat → Nat → Nat → Prop where
  | here {first last : Nat} : first < last → Inspected first last ((first + last) / 2)
  | left {first last t : Nat} : first < last → t < (first + last) / 2 →
      Inspected first ((first + last) / 2 - 1) t → Inspected first last t
  | right {first last t : Nat} : first < last → (first + last) / 2 < t →
      Inspected ((first + last) / 2 + 1) last t → Inspected first last t

end Spec
