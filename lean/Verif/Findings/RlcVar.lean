import Verif.Props.RlcVar

/-!
# Variable data with record-level consistency: where the code does not meet C64

Counterexample run on the model.
-/

namespace EDB

open Spec (VAttempt)

/-- What a lookup with variable data and reading the stream to its end answer. -/
def askV (c : Cfg) (d : Data) (v : Var) (k : Nat) : Option (Int × Option (List Byte) × Option (List Byte)) :=
  match getVar c d v k with
  | .ok (_, v, r, out, st) =>
    match readAll c v st with
    | .ok (_, bs) => some (r, out, bs)
    | _ => none
  | _ => none

/-- The same after the actions. -/
def askAfter (l : List ActV) (k : Nat) : Option (Int × Option (List Byte) × Option (List Byte)) :=
  match actsV demoRV 1 1000 1000 startRV l with
  | some (.on d v, _) => askV demoRV d v k
  | _ => none

/-- Power fails during the insert of record 2, after its data page. -/
def badRV : List ActV := [.put 1 (dat 1) (some (blob 10 10)), .putData 2 (dat 2) (some (blob 5 50)) 9, .reopen]

/-- The next insert. -/
def moreRV : List ActV := [.put 3 (dat 3) (some (blob 7 90))]

/-- C64 is false of records whose insert was cut off (and C30 is false with record-level consistency).  `embedDBPutVar` makes the record
durable, in a temporary page together with the place its variable data will get, before it writes the variable data
(embedDB.c:1219-1268).  Power fails in between.  The insert of record 2 was never acknowledged; after recovery the record is
there and its variable data cannot be read (result -1).  The next record inserted gets the same place for its variable data, and from
then on a lookup of record 2 succeeds with the variable data of record 3, also after the files are opened again. -/
theorem C64_false_unacknowledged :
    askAfter badRV 1 = some (0, some (dat 1), some (blob 10 10)) ∧
    askAfter badRV 2 = some (-1, some (dat 2), none) ∧
    askAfter (badRV ++ moreRV) 3 = some (0, some (dat 3), some (blob 7 90)) ∧
    askAfter (badRV ++ moreRV) 2 = some (0, some (dat 2), some (blob 7 90)) ∧
    askAfter (badRV ++ moreRV ++ [.idle, .reopen]) 2 = some (0, some (dat 2), some (blob 7 90)) := by
  refine ⟨?_, ?_, ?_, ?_, ?_⟩ <;> decide +kernel

end EDB
