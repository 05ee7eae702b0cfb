import Verif.Spec.Index

/-!
# Specification: which pages a scan with a bitmap index has to look at
-/

namespace Spec

/-- The bitmap of the records of a page: `upd` applied to the data of each of them, starting from `init`. -/
def pageBitmap (upd : List UInt8 → List UInt8 → List UInt8) (init : List UInt8) (rs : List Rec) : List UInt8 :=
  rs.foldl (fun b r => upd r.2 b) init

open Classical in
/-- How many of the pages `a, …, b - 1` may have to be read: those whose bitmap is not among the bitmaps `lo, …, hi - 1`
on file, and those whose bitmap `bm l` meets the bitmap `q` of the query. -/
noncomputable def toRead (bm : Nat → List UInt8) (q : List UInt8) (lo hi a b : Nat) : Nat :=
  (List.range' a (b - a)).countP fun l => decide (¬ (lo ≤ l ∧ l < hi) ∨ Meets q (bm l))

end Spec
