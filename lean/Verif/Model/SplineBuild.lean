import Verif.Model.Spline

/-! # `splineBuild` (`src/spline/spline.c`) -/

namespace EDB.Spline

/-- spline.c:244-248: the loop; `i` is the number of the next key. -/
def addAll (s : Spline) : Nat → List Nat → Spline
  | _, [] => s
  | i, k :: ks => (s.add k i).addAll (i + 1) ks

/-- spline.c:241-249 `splineBuild`: the keys `data` points to, in order.  (The `id_t` counter is a natural number; the
theorem assumes fewer than 2^32 keys.) -/
def build (s : Spline) (data : List Nat) (maxError : Nat) : Spline := addAll { s with maxErr := maxError } 0 data

end EDB.Spline
