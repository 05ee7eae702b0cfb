import Verif.Model.Life

/-!
# Devices with content

`Data.fresh` and `cutDev` describe a device of which nothing can be read before it is written, as a new file of the
desktop and SD interfaces.  The pages of a dataflash chip can always be read: opening a file on it does nothing
(lib/Dataflash-File-Interface/dataflashFileInterface.c:95-97; `dfOpen` in Model/Dataflash), and a page of an erased chip reads as
0xFF bytes.  Here the device has some content before the table is created.
-/

namespace EDB

open Spec (Log Op Out)

/-- `embedDBInit` with EMBEDDB_RESET_DATA (embedDB.c:139-292) on a device with content `init`, which opening does not clear. -/
def Data.freshOn (init : Nat → Option Page) (c : Cfg) (rb : Page) (sm : Nat → Nat × Nat) : Data :=
  { Data.fresh c rb sm with dev := { file := init, log := [], reqs := 0 } }

/-- The device found after power failed when `k` storage operations had been carried out. -/
def cutDevOn (init : Nat → Option Page) (c : Cfg) (v : Dev) (k : Nat) : Dev :=
  { file := Spec.imageOn init c.eraseFx (v.log.take k), log := v.log.take k, reqs := v.reqs }

/-- Power fails after `k` storage operations and the table is opened again without EMBEDDB_RESET_DATA. -/
def reopenOn (init : Nat → Option Page) (c : Cfg) (v : Dev) (k : Nat) (rb : Page) (sm : Nat → Nat × Nat) : Data × Int :=
  recover c (cutDevOn init c v k) rb sm

/-- `Life` on a device with content `init`. -/
inductive LifeOn (init : Nat → Option Page) (c : Cfg) (lo K P : Nat) : Data → Log → Prop
  /-- created with EMBEDDB_RESET_DATA -/
  | new (rb : Page) (sm : Nat → Nat × Nat) : LifeOn init c lo K P (Data.freshOn init c rb sm) Log.empty
  /-- one client operation -/
  | op {d d' : Data} {L : Log} {x x' : Idx} {op : Op} {o : Out} (h : LifeOn init c lo K P d L)
      (e : step c d x op = .ok (d', x', o))
      (hput : ∀ k v, op = .put k v → lo ≤ k ∧ k < K ∧ v.length = c.dataSize ∧ ∀ r ∈ L.all, r.1 < k)
      (hP : d.next + 1 < P) : LifeOn init c lo K P d' (Spec.logAfter c.maxRec L [(op, some o)])
  /-- power failure and reopening; `k = 0` is opening a device that never held a table -/
  | cut {d d' : Data} {L : Log} (h : LifeOn init c lo K P d L) (k : Nat) (rb : Page) (sm : Nat → Nat × Nat)
      (hs : SafeCut c d.dev k) (e : reopenOn init c d.dev k rb sm = (d', 0)) : LifeOn init c lo K P d' (cutLog L d.dev k)

end EDB
