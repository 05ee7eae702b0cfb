import Verif.Spec.Var

/-!
# Specification: several open streams of variable data

A client may keep the stream it got from a lookup and read it later, piece by piece, with other operations in between.
-/

namespace Spec

/-- Operations of a client that keeps streams. -/
inductive SOp where
  /-- an operation of `VOp` -/
  | op (o : VOp)
  /-- look up a record with its variable data and keep the stream -/
  | opn (key : Nat)
  /-- read up to `n` bytes from the stream that the `i`-th `opn` gave -/
  | read (i n : Nat)
deriving DecidableEq

/-- Observed results. -/
inductive SOut where
  | res (o : VOut)
  /-- return code, data, and whether there is a stream -/
  | opened (r : Int) (data : Option (List UInt8)) (stream : Bool)
  | bytes (bs : List UInt8)
  /-- the client has no such stream -/
  | noStream
deriving DecidableEq

/-- Operations with their results; `none`: the library did not return. -/
abbrev SHistory := List (SOp × Option SOut)

/-- The operations on the table. -/
def tableOps : List SOp → List VOp
  | [] => []
  | .op o :: t => o :: tableOps t
  | .opn k :: t => .getVar k :: tableOps t
  | .read _ _ :: t => tableOps t

/-- Every observation agrees with the abstract log and with the bytes left of each stream: a stream is fixed when it is
opened, and nothing but its own reads changes what is left of it.  `ans`: allowed results of a lookup with variable data. -/
def SRun (kept : Log → List Rec) (ans : VLog → Nat → VOut → Prop) (cap : Nat) :
    VLog → List (Option (List UInt8)) → SHistory → Prop
  | _, _, [] => True
  | l, S, (.op (.put k v b), o) :: t =>
      (o = some (.res (.code 0)) ∧ SRun kept ans cap (l.put cap k v b) S t) ∨
      (o = some (.res (.code 1)) ∧ MayRefuse cap l.log ∧ SRun kept ans cap l S t)
  | l, S, (.op .flush, o) :: t => o = some (.res (.code 0)) ∧ SRun kept ans cap ⟨l.log.flush, l.var⟩ S t
  | l, S, (.op (.get k), o) :: t =>
      (∃ r d, o = some (.res (.got r d)) ∧ Out.got r d = answer (kept l.log) k) ∧ SRun kept ans cap l S t
  | l, S, (.op (.getVar k), o) :: t => (∃ a, o = some (.res a) ∧ ans l k a) ∧ SRun kept ans cap l S t
  | l, S, (.opn k, o) :: t => ∃ r d b, o = some (.opened r d b.isSome) ∧ ans l k (.gotVar r d b) ∧ SRun kept ans cap l (S ++ [b]) t
  | l, S, (.read i n, o) :: t =>
      match S[i]? with
      | some (some bs) => o = some (.bytes (bs.take n)) ∧ SRun kept ans cap l (S.set i (some (bs.drop n))) t
      | _ => o = some .noStream ∧ SRun kept ans cap l S t

end Spec
