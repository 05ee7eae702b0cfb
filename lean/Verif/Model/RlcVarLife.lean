import Verif.Model.VarRecover
import Verif.Model.RlcLife
import Verif.Spec.RlcVar

/-!
# Power failures of a table with variable data and record-level consistency

The life of the two files of a table with variable data used with EMBEDDB_RECORD_LEVEL_CONSISTENCY, as `Rlc` for the data
file alone.  `embedDBPutVar` (embedDB.c:1190-1271) first inserts the record, which writes a temporary data page, and then
stores the variable data and writes the variable page (embedDB.c:1262-1268).
-/

namespace EDB

open Spec (Op Out VOp VOut VAttempt)

/-- In use by the library, or power is off and only the two files (data, variable data) exist. -/
inductive VMachine where
  | on (d : Data) (v : Var)
  | off (D V : Dev)

/-- What may be inserted: keys within bounds, ascending, data of the right length, and so much variable data that the
variable data file does not wrap. -/
structure OfferV (c : Cfg) (lo K : Nat) (H : List VAttempt) (v : Var) (k : Nat) (a : List Byte) (b : Option (List Byte)) : Prop where
  lo : lo ≤ k
  hi : k + 1 < K
  len : a.length = c.dataSize
  asc : ∀ r ∈ Spec.tried (H.map VAttempt.data), r.1 < k
  room : ∀ bs, b = some bs → bs.length < 2 ^ 32 ∧ v.next + (4 + bs.length) / (c.pageSize - c.vhdr) + 1 < c.numVar

/-- The life of the two files, with what the client tried so far.  Fewer than `P` data pages are ever written. -/
inductive RlcV (c : Cfg) (lo K P : Nat) : VMachine → List VAttempt → Prop
  /-- created empty -/
  | new (rb : Page) (sm : Nat → Nat × Nat) (vrb : Page) (hv : Bool) :
      RlcV c lo K P (.on (Data.fresh c rb sm) (Var.fresh c vrb hv)) []
  /-- an insert that is acknowledged -/
  | put {d d' : Data} {v v' : Var} {x x' : Idx} {H : List VAttempt} {k : Nat} {a : List Byte} {b : Option (List Byte)}
      (h : RlcV c lo K P (.on d v) H) (ho : OfferV c lo K H v k a b) (hP : d.next + 1 < P)
      (e : putVar c d x v k a b = .ok (d', x', v', 0)) : RlcV c lo K P (.on d' v') (H ++ [.put k a b])
  /-- an insert that is refused -/
  | refused {d d' : Data} {v v' : Var} {x x' : Idx} {H : List VAttempt} {k : Nat} {a : List Byte} {b : Option (List Byte)} {r : Int}
      (h : RlcV c lo K P (.on d v) H) (ho : OfferV c lo K H v k a b) (hP : d.next + 1 < P)
      (e : putVar c d x v k a b = .ok (d', x', v', r)) (hr : r ≠ 0) : RlcV c lo K P (.on d' v') H
  /-- a flush -/
  | flush {d d' : Data} {v v' : Var} {x x' : Idx} {H : List VAttempt} (h : RlcV c lo K P (.on d v) H) (hf : FlushOk c d)
      (hP : d.next + 1 < P) (e : flushV c d x v = .ok (d', x', v', 0)) : RlcV c lo K P (.on d' v') (H ++ [.flush])
  /-- a lookup or a scan of the records -/
  | read {d d' : Data} {v : Var} {H : List VAttempt} {x x' : Idx} {op : Op} {o : Out} (h : RlcV c lo K P (.on d v) H)
      (hr : op.isRead) (e : step c d x op = .ok (d', x', o)) : RlcV c lo K P (.on d' v) H
  /-- a lookup with variable data -/
  | getVar {d d' : Data} {v v' : Var} {H : List VAttempt} {k : Nat} {r : Int} {out : Option (List Byte)} {st : Option Stream}
      (h : RlcV c lo K P (.on d v) H) (e : getVar c d v k = .ok (d', v', r, out, st)) : RlcV c lo K P (.on d' v') H
  /-- reading any stream -/
  | stream {d : Data} {v v' : Var} {H : List VAttempt} {st st' : Stream} {n : Nat} {bs : List Byte}
      (h : RlcV c lo K P (.on d v) H) (e : streamRead c v st n = .ok (v', st', bs)) : RlcV c lo K P (.on d v') H
  /-- a step of a scan with variable data -/
  | nextVar {d d' : Data} {v v' : Var} {x x' : Idx} {H : List VAttempt} {it it' : Iter}
      {out : Option ((Nat × List Byte) × Option Stream)}
      (h : RlcV c lo K P (.on d v) H) (e : nextVar c d x v it = .ok (d', x', v', it', out)) : RlcV c lo K P (.on d' v') H
  /-- power fails between two operations -/
  | idle {d : Data} {v : Var} {H : List VAttempt} (h : RlcV c lo K P (.on d v) H) : RlcV c lo K P (.off d.dev v.dev) H
  /-- pages of the data file that were never written become readable -/
  | gaps {D V : Dev} {H : List VAttempt} {f' : Nat → Option Page} (h : RlcV c lo K P (.off D V) H) (g : Gaps c P D.file f') :
      RlcV c lo K P (.off { D with file := f' } V) H
  /-- power fails during an insert -/
  | putCut {d : Data} {v : Var} {x : Idx} {H : List VAttempt} {k : Nat} {a : List Byte} {b : Option (List Byte)} {D V : Dev}
      (h : RlcV c lo K P (.on d v) H) (ho : OfferV c lo K H v k a b) (hP : d.next + 1 < P)
      (e : PowerFail c d x v (.put k a b) D V) : RlcV c lo K P (.off D V) (H ++ [.putCut k a b])
  /-- power fails during a flush -/
  | flushCut {d : Data} {v : Var} {x : Idx} {H : List VAttempt} {D V : Dev} (h : RlcV c lo K P (.on d v) H) (hf : FlushOk c d)
      (hP : d.next + 1 < P) (e : PowerFail c d x v .flush D V) : RlcV c lo K P (.off D V) (H ++ [.flushCut])
  /-- power fails during a lookup with variable data -/
  | getCut {d : Data} {v : Var} {x : Idx} {H : List VAttempt} {k : Nat} {D V : Dev} (h : RlcV c lo K P (.on d v) H)
      (e : PowerFail c d x v (.getVar k) D V) : RlcV c lo K P (.off D V) H
  /-- the files are opened again -/
  | reopen {D V : Dev} {d' : Data} {v' : Var} {H : List VAttempt} (h : RlcV c lo K P (.off D V) H) (rb : Page)
      (sm : Nat → Nat × Nat) (vrb : Page) (hv : Bool) (e : reopenV c D V rb sm vrb hv = (d', v', 0)) :
      RlcV c lo K P (.on d' v') H
  /-- power fails during recovery, which does not write to the variable data file -/
  | openCut {D V : Dev} {d' : Data} {H : List VAttempt} {r : Int} (h : RlcV c lo K P (.off D V) H) (rb : Page)
      (sm : Nat → Nat × Nat) (e : recover c D rb sm = (d', r)) (j : Nat) :
      RlcV c lo K P (.off (cutFrom c D d'.dev j) V) H

end EDB
