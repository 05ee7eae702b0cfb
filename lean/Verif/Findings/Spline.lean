import Verif.Props.Search
import Verif.Proofs.Demo

/-!
# C12 is false of the code when the first page added is not page 0, and when 64-bit products overflow

`splineAdd` of the second point compares the new point with a lower limit of `page - maxError`.  When that limit is
below the first point's page (possible only if the first page number is positive, i.e. after reopening a wrapped
file, and `maxError ≥ 2`) the unsigned product is huge, the point counts as outside the corridor and is stored twice.
A lookup of that page's first key can then divide 0 by 0 and convert the NaN to an integer (undefined behaviour).
-/

namespace EDB

/-- Pages 5 to 8 with first keys 10, 20, 30 and 40, `maxError` 2: the lookup of key 20 is undefined behaviour. -/
theorem C12_false_first_page : ∃ (s : Spline) (ks : List Nat),
    Built 4 2 5 (fun _ => (0, 0)) s ks ∧ ks.Pairwise (· < ·) ∧ ks[1]? = some 20 ∧
    s.find demo.cmpKey 20 = .ub := by
  refine ⟨_, _, .add 40 (.add 30 (.add 20 (.add 10 .init))), by decide, by decide, ?_⟩
  decide +kernel

/-- C12 is also false when the products of key and page distances do not fit 64 bits (`Bounds.prod`): pages 0 to 3 of a
new table whose first keys are spread over the range of 8-byte keys.  Key `28 * 2^58` is the first key of page 3, but
the predicted range is pages 0 to 1. -/
theorem C12_false_overflow : ∃ (s : Spline) (ks : List Nat),
    Built 4 1 0 (fun _ => (0, 0)) s ks ∧ ks = [1, 12, 17, 28].map (· * 2 ^ 58) ∧
    s.find demo.cmpKey (28 * 2 ^ 58) = .ok ⟨0, 0, 1⟩ := by
  refine ⟨_, _, .add (28 * 2 ^ 58) (.add (17 * 2 ^ 58) (.add (12 * 2 ^ 58) (.add (1 * 2 ^ 58) .init))),
    by decide, ?_⟩
  decide +kernel

end EDB
