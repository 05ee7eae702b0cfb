import Verif.Spec.Log

/-!
# Specification: range scans

A scan with any combination of bounds returns exactly the records within all the bounds, in order.  Data values are
compared with the client's own three-way comparison.
-/

namespace Spec

/-- The bounds of a scan; an absent bound does not restrict. -/
structure Range where
  minKey : Option Nat
  maxKey : Option Nat
  minData : Option (List UInt8)
  maxData : Option (List UInt8)
deriving DecidableEq

/-- Is the record within all bounds? -/
def Range.has (cmp : List UInt8 → List UInt8 → Int) (q : Range) (r : Rec) : Bool :=
  q.minKey.all (fun k => k ≤ r.1) && q.maxKey.all (fun k => r.1 ≤ k) &&
    q.minData.all (fun v => 0 ≤ cmp r.2 v) && q.maxData.all (fun v => cmp r.2 v ≤ 0)

/-- The result of a scan over the given records. -/
def scan (cmp : List UInt8 → List UInt8 → Int) (q : Range) (rs : List Rec) : List Rec := rs.filter (q.has cmp)

end Spec
