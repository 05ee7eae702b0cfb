import Verif.Model.Mixed
import Verif.Spec.Fault

/-!
# Reads that fail

`readPage` and `readIndexPage` return -1 when `fileInterface->read` does (embedDB.c:2263-2266, 2288-2291); they then
change neither the buffered page number nor (assuming the file interface has not touched it) the buffer.

A storage page that cannot be read is one the device does not have (`Dev.file` is `none` there, as for pages never
written).  The fault lasts for one call.
-/

namespace EDB

open Spec (FOp MOut Op Out setAt)

/-- The device while the pages `bad` cannot be read. -/
def Dev.without (v : Dev) (bad : List Nat) : Dev := { v with file := fun ph => if ph ∈ bad then none else v.file ph }

/-- The data part while the pages `bad` cannot be read. -/
def Data.without (d : Data) (bad : List Nat) : Data := { d with dev := d.dev.without bad }

/-- The index part while the pages `bad` cannot be read. -/
def Idx.without (x : Idx) (bad : List Nat) : Idx := { x with dev := x.dev.without bad }

/-- One operation; the device is as before after a call during which reads failed. -/
def fstep (stp : Data → Idx → Op → Res (Data × Idx × Out)) (c : Cfg) (d : Data) (x : Idx) (its : Nat → Option Iter) :
    FOp → Res (Data × Idx × (Nat → Option Iter) × MOut)
  | .plain o => mstep stp c d x its o
  | .get k bad => do
    let (d', r, out) ← get c (d.without bad) k
    .ok ({ d' with dev := d.dev }, x, its, .out (.got r out))
  | .nxt i bad badIdx =>
    match its i with
    | none => .ub
    | some it => do
      let (d', x', it, out) ← next c (d.without bad) (x.without badIdx) it
      .ok ({ d' with dev := d.dev }, { x' with dev := x.dev }, setAt its i (some it), .row out)

/-- The observations of a client that performs the operations in order. -/
def fhistory (stp : Data → Idx → Op → Res (Data × Idx × Out)) (c : Cfg) :
    Data → Idx → (Nat → Option Iter) → List FOp → List (FOp × Option MOut)
  | _, _, _, [] => []
  | d, x, its, op :: ops =>
    match fstep stp c d x its op with
    | .ok (d', x', its', o) => (op, some o) :: fhistory stp c d' x' its' ops
    | _ => [(op, none)]

/-- A read of page `phys` that fails after `n` bytes have arrived in the buffer (desktopFileInterface.c: `FILE_READ` reads
straight into it; the library, embedDB.c:2263-2266, then returns -1 and leaves `bufferedPageId` as it was). -/
def tornRead (d : Data) (phys n : Nat) : Data :=
  match d.dev.file phys with
  | none => d
  | some p => { d with rbuf := fun i => if i < n then p i else d.rbuf i }

end EDB
