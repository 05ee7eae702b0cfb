import Verif.Spec.Rlc
import Verif.Spec.Var

/-!
# Specification: variable data with record-level consistency

What a client of a table with variable data tried, some of it cut off by power failures.
-/

namespace Spec

/-- What a client tried, in order: a record has a key, data and possibly variable data. -/
inductive VAttempt where
  /-- an insert that returned 0 -/
  | put (k : Nat) (a : List UInt8) (b : Option (List UInt8))
  /-- a flush that returned 0 -/
  | flush
  /-- an insert during which power failed -/
  | putCut (k : Nat) (a : List UInt8) (b : Option (List UInt8))
  /-- a flush during which power failed -/
  | flushCut

/-- The same without the variable data. -/
def VAttempt.data : VAttempt → Attempt
  | .put k a _ => .put (k, a)
  | .flush => .flush
  | .putCut k a _ => .putCut (k, a)
  | .flushCut => .flushCut

/-- The records whose insert was acknowledged. -/
def ackedV : List VAttempt → List (Nat × List UInt8 × Option (List UInt8))
  | [] => []
  | .put k a b :: t => (k, a, b) :: ackedV t
  | _ :: t => ackedV t

end Spec
