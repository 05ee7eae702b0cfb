import Verif.Spec.Mixed

/-!
# Specification: reads that fail

A call during which the storage cannot be read may miss: a lookup then says "not found", a cursor says "no more rows".
Nothing else may happen: what is delivered is right, and a call that missed has changed nothing.
-/

namespace Spec

/-- A client's operation, for lookups and `next` with the storage pages that cannot be read while it runs. -/
inductive FOp where
  | plain (o : MOp)
  /-- `bad`: pages of the data file -/
  | get (key : Nat) (bad : List Nat)
  /-- `bad`, `badIdx`: pages of the data file and of the index file -/
  | nxt (i : Nat) (bad badIdx : List Nat)

/-- The operation itself. -/
def FOp.base : FOp → MOp
  | .plain o => o
  | .get k _ => .op (.get k)
  | .nxt i _ _ => .nxt i

/-- Is the storage damaged during the operation? -/
def FOp.failing : FOp → Bool
  | .plain _ => false
  | .get _ bad => !bad.isEmpty
  | .nxt _ bad badIdx => !bad.isEmpty || !badIdx.isEmpty

/-- The result of a call that missed. -/
def FOp.missed : FOp → Option MOut
  | .plain _ => none
  | .get _ _ => some (.out (.got (-1) none))
  | .nxt _ _ _ => some (.row none)

/-- Every observation is the right one, or the storage was damaged, the call missed, and the client goes on as if it had
not been made. -/
def FaultRun (limit : Log → Prop) (oldest : Log → Nat) (cap : Nat) (cmp : List UInt8 → List UInt8 → Int) :
    Log → (Nat → Option Cursor) → List (FOp × Option MOut) → Prop
  | _, _, [] => True
  | l, cs, (f, o) :: t =>
      MixStep limit oldest cap cmp l cs o (fun l cs => FaultRun limit oldest cap cmp l cs t) f.base ∨
      (f.failing = true ∧ o = f.missed ∧ FaultRun limit oldest cap cmp l cs t)

end Spec
