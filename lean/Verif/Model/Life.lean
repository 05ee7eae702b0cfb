import Verif.Model.Client
import Verif.Model.Recover
import Verif.Spec.Device

/-!
# Power failures

The device keeps the operations that reached it in order (`Dev.log`), so what a power failure leaves is the image of a
prefix of that list.  `Life` is the life of one data file: created, used, cut off at an arbitrary storage operation,
reopened, used again, and so on.
-/

namespace EDB

open Spec (Log Op Out)

/-- The device found after power failed when `k` storage operations had been carried out. -/
def cutDev (c : Cfg) (v : Dev) (k : Nat) : Dev :=
  { file := Spec.image c.eraseFx (v.log.take k), log := v.log.take k, reqs := v.reqs }

/-- Power fails after `k` storage operations and the table is opened again without EMBEDDB_RESET_DATA. -/
def reopen (c : Cfg) (v : Dev) (k : Nat) (rb : Page) (sm : Nat → Nat × Nat) : Data × Int :=
  recover c (cutDev c v k) rb sm

/-- The log of the pages that were on the device at that moment. -/
def cutLog (L : Log) (v : Dev) (k : Nat) : Log := ⟨L.pages.take (Spec.writes (v.log.take k)).length, []⟩

/-- The moment is not right after the erase of the first block, or erasing leaves pages readable and unchanged (as
`FILE_ERASE` of lib/Desktop-File-Interface/desktopFileInterface.c:36-38, a no-op). -/
def SafeCut (c : Cfg) (v : Dev) (k : Nat) : Prop :=
  (∀ hi, (v.log.take k).getLast? ≠ some (.erase 0 hi)) ∨ ∀ q, c.eraseFx (some q) = some q

/-- Life of a data file with keys in `[lo, K)` and fewer than `P` pages ever written: state of the library and the log of
what was stored.  Inserts must offer ascending keys. -/
inductive Life (c : Cfg) (lo K P : Nat) : Data → Log → Prop
  /-- created empty -/
  | new (rb : Page) (sm : Nat → Nat × Nat) : Life c lo K P (Data.fresh c rb sm) Log.empty
  /-- one client operation -/
  | op {d d' : Data} {L : Log} {x x' : Idx} {op : Op} {o : Out} (h : Life c lo K P d L)
      (e : step c d x op = .ok (d', x', o))
      (hput : ∀ k v, op = .put k v → lo ≤ k ∧ k < K ∧ v.length = c.dataSize ∧ ∀ r ∈ L.all, r.1 < k)
      (hP : d.next + 1 < P) : Life c lo K P d' (Spec.logAfter c.maxRec L [(op, some o)])
  /-- power failure and reopening -/
  | cut {d d' : Data} {L : Log} (h : Life c lo K P d L) (k : Nat) (rb : Page) (sm : Nat → Nat × Nat)
      (hs : SafeCut c d.dev k) (e : reopen c d.dev k rb sm = (d', 0)) : Life c lo K P d' (cutLog L d.dev k)

/-- `Life` with the number of pages found on file at each reopening, the latest first. -/
inductive LifeR (c : Cfg) (lo K P : Nat) : List Nat → Data → Log → Prop
  | new (rb : Page) (sm : Nat → Nat × Nat) : LifeR c lo K P [] (Data.fresh c rb sm) Log.empty
  | op {R : List Nat} {d d' : Data} {L : Log} {x x' : Idx} {op : Op} {o : Out} (h : LifeR c lo K P R d L)
      (e : step c d x op = .ok (d', x', o))
      (hput : ∀ k v, op = .put k v → lo ≤ k ∧ k < K ∧ v.length = c.dataSize ∧ ∀ r ∈ L.all, r.1 < k)
      (hP : d.next + 1 < P) : LifeR c lo K P R d' (Spec.logAfter c.maxRec L [(op, some o)])
  | cut {R : List Nat} {d d' : Data} {L : Log} (h : LifeR c lo K P R d L) (k : Nat) (rb : Page) (sm : Nat → Nat × Nat)
      (hs : SafeCut c d.dev k) (e : reopen c d.dev k rb sm = (d', 0)) :
      LifeR c lo K P ((Spec.writes (d.dev.log.take k)).length :: R) d' (cutLog L d.dev k)

end EDB
