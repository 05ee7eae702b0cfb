import Verif.Spec.Scan

/-!
# Specification: when a bitmap index is allowed to skip a page
-/

namespace Spec

/-- Two bitmaps have a common bit. -/
def Meets (a b : List UInt8) : Prop := ∃ i, a.getD i 0 &&& b.getD i 0 ≠ 0

/-- The value is within the bounds. -/
def within (cmp : List UInt8 → List UInt8 → Int) (min max : Option (List UInt8)) (v : List UInt8) : Bool :=
  min.all (fun b => 0 ≤ cmp v b) && max.all (fun b => cmp v b ≤ 0)

/-- A sound pair of user functions (`updateBitmap`, `buildBitmapFromRange`) for bitmaps of `size` bytes and values of
`dlen` bytes: bitmaps keep their size, adding a value never unsets what a query sees, and a query sees every value
within its bounds once it has been added. -/
structure SoundBitmap (size dlen : Nat) (cmp : List UInt8 → List UInt8 → Int)
    (upd : List UInt8 → List UInt8 → List UInt8)
    (build : Option (List UInt8) → Option (List UInt8) → List UInt8) : Prop where
  len : ∀ v b, b.length = size → (upd v b).length = size
  keep : ∀ min max v b, v.length = dlen → b.length = size → Meets (build min max) b → Meets (build min max) (upd v b)
  hit : ∀ min max v b, v.length = dlen → b.length = size → within cmp min max v = true →
    Meets (build min max) (upd v b)

end Spec
