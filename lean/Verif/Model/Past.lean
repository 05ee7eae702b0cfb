import Verif.Model.Fault
import Verif.Model.Life
import Verif.Model.VarRecover
import Verif.Spec.Genuine

/-!
# Everything that can happen to a table

`Past` is the set of states a table can be in, for any configuration (spline or binary search, with or without index file,
variable data and record-level consistency), when any writes and erases are refused (`Cfg.ioOk`), reads fail during
lookups and iterators, keys come in any order, the file wraps around while stale pages are cached, and power fails at any
storage operation any number of times.
-/

namespace EDB

open Spec (Op FOp MOp Range Rec)

/-- Keys below `K` and data of the right length. -/
def FOp.Fits (c : Cfg) (K : Nat) (op : FOp) : Prop :=
  (∀ k v, op = .plain (.op (.put k v)) → k < K ∧ v.length = c.dataSize) ∧
  (∀ k, op.base = .op (.get k) → k < K) ∧
  ∀ q, (op.base = .op (.scan q) ∨ ∃ i, op.base = .opn i q) →
    (∀ k, q.minKey = some k → k < K) ∧ ∀ k, q.maxKey = some k → k < K

/-- The state of the data file and of the iterators, the bounds the client gave to the iterators, and the records the client
has inserted.  Nothing is assumed about the states `x` of the index file and `v` of the variable data file, they may be different
ones in every step. -/
inductive Past (c : Cfg) (K : Nat) : Data → (Nat → Option Iter) → (Nat → Option Range) → List Rec → Prop
  /-- created empty (embedDB.c:274-292) -/
  | new (rb : Page) (sm : Nat → Nat × Nat) : Past c K (Data.fresh c rb sm) (fun _ => none) (fun _ => none) []
  /-- one client operation -/
  | op {d d' : Data} {its its' : Nat → Option Iter} {b : Nat → Option Range} {S : List Rec} {x x' : Idx} {op : FOp}
      {o : Spec.MOut} (h : Past c K d its b S) (hf : FOp.Fits c K op)
      (e : fstep (stepX c) c d x its op = .ok (d', x', its', o)) :
      Past c K d' its' (Spec.boundsAfter b op) (S ++ Spec.gainedF op o)
  /-- power failure at any storage operation and opening again, with any result -/
  | cut {d : Data} {its : Nat → Option Iter} {b : Nat → Option Range} {S : List Rec} (h : Past c K d its b S) (k : Nat) (rb : Page)
      (sm : Nat → Nat × Nat) : Past c K (reopen c d.dev k rb sm).1 (fun _ => none) (fun _ => none) S
  /-- an insert with or without variable data -/
  | putVar {d d' : Data} {its : Nat → Option Iter} {b : Nat → Option Range} {S : List Rec} {x x' : Idx} {v v' : Var} {k : Nat}
      {a : List Byte} {bs : Option (List Byte)} {r : Int} (h : Past c K d its b S) (hk : k < K) (hl : a.length = c.dataSize)
      (e : putVar c d x v k a bs = .ok (d', x', v', r)) : Past c K d' its b (S ++ Spec.gained (.put k a) (.code r))
  /-- `embedDBPut` on a table with variable data -/
  | putPlain {d d' : Data} {its : Nat → Option Iter} {b : Nat → Option Range} {S : List Rec} {x x' : Idx} {v v' : Var} {k : Nat}
      {a : List Byte} {r : Int} (h : Past c K d its b S) (hk : k < K) (hl : a.length = c.dataSize)
      (e : putPlain c d x v k a = .ok (d', x', v', r)) : Past c K d' its b (S ++ Spec.gained (.put k a) (.code r))
  /-- a flush of a table with variable data -/
  | flushVar {d d' : Data} {its : Nat → Option Iter} {b : Nat → Option Range} {S : List Rec} {x x' : Idx} {v v' : Var} {r : Int}
      (h : Past c K d its b S) (e : flushV c d x v = .ok (d', x', v', r)) : Past c K d' its b S
  /-- a lookup with variable data during which the data pages `bad` cannot be read -/
  | getVar {d d' : Data} {its : Nat → Option Iter} {b : Nat → Option Range} {S : List Rec} {v v' : Var} {k : Nat} {r : Int}
      {out : Option (List Byte)} {st : Option Stream} (h : Past c K d its b S) (bad : List Nat)
      (e : getVar c (d.without bad) v k = .ok (d', v', r, out, st)) : Past c K { d' with dev := d.dev } its b S
  /-- an iterator step with variable data during which the data pages `bad` cannot be read -/
  | nextVar {d d' : Data} {its : Nat → Option Iter} {b : Nat → Option Range} {S : List Rec} {x x' : Idx} {v v' : Var} {i : Nat}
      {it it' : Iter} {out : Option ((Nat × List Byte) × Option Stream)} (h : Past c K d its b S) (bad : List Nat)
      (hi : its i = some it) (e : nextVar c (d.without bad) x v it = .ok (d', x', v', it', out)) :
      Past c K { d' with dev := d.dev } (Spec.setAt its i (some it')) b S
  /-- power failure and opening of a table with variable data, with any result -/
  | cutVar {d : Data} {its : Nat → Option Iter} {b : Nat → Option Range} {S : List Rec} (h : Past c K d its b S) (k : Nat) (V : Dev)
      (rb : Page) (sm : Nat → Nat × Nat) (vrb : Page) (hv : Bool) :
      Past c K (reopenV c (cutDev c d.dev k) V rb sm vrb hv).1 (fun _ => none) (fun _ => none) S

end EDB
