import Verif.Model.Life
import Verif.Model.VarRecover
import Verif.Spec.Rlc

/-!
# Power failures with record-level consistency

The life of a data file used with EMBEDDB_RECORD_LEVEL_CONSISTENCY: at any moment the device is in use by the library
(`on`) or power is off and only the file exists (`off`).  Power may fail between any two storage operations of an
insert, a flush or of the recovery itself.

Pages that were never written cannot be read in the model until something makes them readable (`Gaps`): the first
temporary page is written one block further on than the first data page (embedDB.c:290), so in a file there is a hole in front
of it, which reads as zeros (desktopFileInterface.c:31-35) or as bytes 255 (SDFileInterface.c); and on a raw flash chip
(dataflashFileInterface.c:57-70) a page that was never written reads as an erased one.  Pages are looked at beyond what was
written only when a file is opened, so it is enough to let this happen while power is off.
-/

namespace EDB

open Spec (Op Out Attempt)

/-- See above. -/
inductive Machine where
  | on (d : Data)
  | off (v : Dev)

/-- Where the storage of a machine is. -/
def Machine.dev : Machine → Dev
  | .on d => d.dev
  | .off v => v

/-- What may be inserted: keys within bounds, ascending, data of the right length. -/
def Offer (c : Cfg) (lo K : Nat) (H : List Attempt) (k : Nat) (v : List Byte) : Prop :=
  lo ≤ k ∧ k < K ∧ v.length = c.dataSize ∧ ∀ r ∈ Spec.tried H, r.1 < k

/-- A flush that writes no page or not the last page of a block (see `C21_false_flush` for the others). -/
def FlushOk (c : Cfg) (d : Data) : Prop := pageCount d.wbuf = 0 ∨ (d.next + 1) % c.B ≠ 0

/-- From `f` to `f'` some pages that were never written have become readable: a page with a number that no page has, as an
erase leaves it, and at the start of a block not one that belongs there (see `C65_false_odd`); or a page of zeros in front of a
page with a number of the table. -/
def Gaps (c : Cfg) (P : Nat) (f f' : Nat → Option Page) : Prop :=
  ∀ ph, f' ph = f ph ∨ (f ph = none ∧ ph < c.N ∧ ∃ q, f' ph = some q ∧ toInt8 (pageCount q) ≤ 0 ∧
    ((P ≤ pageId q ∧ c.eraseFx (some q) = some q ∧ (c.B ∣ ph → pageId q % c.N ≠ ph)) ∨
     (pageId q = 0 ∧ pageCount q = 0 ∧ ∃ ph' q', ph < ph' ∧ f ph' = some q' ∧ pageId q' < P)))

/-- The life of a data file, with what the client tried so far.  Fewer than `P` pages are ever written.  While power is off
the file may come to read as `G` says. -/
inductive RlcG (c : Cfg) (lo K P : Nat) (G : Dev → (Nat → Option Page) → Prop) : Machine → List Attempt → Prop
  /-- created empty -/
  | new (rb : Page) (sm : Nat → Nat × Nat) : RlcG c lo K P G (.on (Data.fresh c rb sm)) []
  /-- an insert that is acknowledged -/
  | put {d d' : Data} {H : List Attempt} {k : Nat} {v : List Byte} {w : Bool} (h : RlcG c lo K P G (.on d) H)
      (ho : Offer c lo K H k v) (hP : d.next + 1 < P) (e : putD c d k v 0 = .ok (d', 0, w)) :
      RlcG c lo K P G (.on d') (H ++ [.put (k, v)])
  /-- an insert that is refused -/
  | refused {d d' : Data} {H : List Attempt} {k : Nat} {v : List Byte} {w : Bool} {r : Int} (h : RlcG c lo K P G (.on d) H)
      (ho : Offer c lo K H k v) (hP : d.next + 1 < P) (e : putD c d k v 0 = .ok (d', r, w)) (hr : r ≠ 0) :
      RlcG c lo K P G (.on d') H
  /-- a flush -/
  | flush {d d' : Data} {H : List Attempt} {w : Bool} (h : RlcG c lo K P G (.on d) H) (hf : FlushOk c d) (hP : d.next + 1 < P)
      (e : flushD c d = .ok (d', 0, w)) : RlcG c lo K P G (.on d') (H ++ [.flush])
  /-- a lookup or a scan -/
  | read {d d' : Data} {H : List Attempt} {x x' : Idx} {op : Op} {o : Out} (h : RlcG c lo K P G (.on d) H) (hr : op.isRead)
      (e : step c d x op = .ok (d', x', o)) : RlcG c lo K P G (.on d') H
  /-- power fails between two operations -/
  | idle {d : Data} {H : List Attempt} (h : RlcG c lo K P G (.on d) H) : RlcG c lo K P G (.off d.dev) H
  /-- pages that were never written become readable -/
  | gaps {v : Dev} {H : List Attempt} {f' : Nat → Option Page} (h : RlcG c lo K P G (.off v) H) (g : G v f') :
      RlcG c lo K P G (.off { v with file := f' }) H
  /-- power fails during an insert, after `j` of its storage operations -/
  | putCut {d d' : Data} {H : List Attempt} {k : Nat} {v : List Byte} {w : Bool} {r : Int} (h : RlcG c lo K P G (.on d) H)
      (ho : Offer c lo K H k v) (hP : d.next + 1 < P) (e : putD c d k v 0 = .ok (d', r, w)) (j : Nat) :
      RlcG c lo K P G (.off (cutFrom c d.dev d'.dev j)) (H ++ [.putCut (k, v)])
  /-- power fails during a flush -/
  | flushCut {d d' : Data} {H : List Attempt} {w : Bool} {r : Int} (h : RlcG c lo K P G (.on d) H) (hf : FlushOk c d)
      (hP : d.next + 1 < P) (e : flushD c d = .ok (d', r, w)) (j : Nat) :
      RlcG c lo K P G (.off (cutFrom c d.dev d'.dev j)) (H ++ [.flushCut])
  /-- the file is opened again -/
  | reopen {v : Dev} {d' : Data} {H : List Attempt} (h : RlcG c lo K P G (.off v) H) (rb : Page) (sm : Nat → Nat × Nat)
      (e : recover c v rb sm = (d', 0)) : RlcG c lo K P G (.on d') H
  /-- power fails during recovery -/
  | openCut {v : Dev} {d' : Data} {H : List Attempt} {r : Int} (h : RlcG c lo K P G (.off v) H) (rb : Page)
      (sm : Nat → Nat × Nat) (e : recover c v rb sm = (d', r)) (j : Nat) :
      RlcG c lo K P G (.off (cutFrom c v d'.dev j)) H

/-- The life of a data file of which pages that were never written may become readable at any time. -/
abbrev Rlc (c : Cfg) (lo K P : Nat) : Machine → List Attempt → Prop := RlcG c lo K P fun v f' => Gaps c P v.file f'

end EDB
