import Verif.Model.Var
import Verif.Spec.Device

/-!
# Power failures of a table with variable data

Data file and variable data file are two files, so the order of the operations on both matters.
-/

namespace EDB

open Spec (VOp VOut)

/-- The storage operations that took `a` to `b`. -/
def between (a b : Dev) : List Ev := b.log.drop a.log.length

/-- The content of the file after the first `j` of the storage operations that took `a` to `b`. -/
def cutBetween (c : Cfg) (a b : Dev) (j : Nat) : Nat → Option Page :=
  ((between a b).take j).foldl (Spec.applyEv c.eraseFx) a.file

/-- Power fails during an operation: number of data pages written so far, content of the data file, content of the
variable data file.  Order of the storage operations:
`embedDBPutVar`: embedDB.c:1200-1211 (variable page), 1214-1221 (`embedDBPut`: data page), 1223-1258 (variable pages);
`embedDBFlush`: embedDB.c:1673 (data page), 1713 (`embedDBFlushVar`: variable page);
`embedDBGetVar`: embedDB.c:1555 (`embedDBFlushVar`). -/
inductive CrashV (c : Cfg) (d : Data) (x : Idx) (v : Var) : VOp → Nat → (Nat → Option Page) → (Nat → Option Page) → Prop
  | putBefore (k a b j) : CrashV c d x v (.put k a b) d.next d.dev.file (cutBetween c v.dev (preVar c d v).dev j)
  | putData (k a b j) {d' x' v' o} (h : stepV c d x v (.put k a b) = .ok (d', x', v', o)) :
      CrashV c d x v (.put k a b) (d.next + (Spec.writes ((between d.dev d'.dev).take j)).length) (cutBetween c d.dev d'.dev j)
        (preVar c d v).dev.file
  | putAfter (k a b j) {d' x' v' o} (h : stepV c d x v (.put k a b) = .ok (d', x', v', o)) :
      CrashV c d x v (.put k a b) d'.next d'.dev.file (cutBetween c (preVar c d v).dev v'.dev j)
  | flushData (j) {d' x' v' o} (h : stepV c d x v .flush = .ok (d', x', v', o)) :
      CrashV c d x v .flush (d.next + (Spec.writes ((between d.dev d'.dev).take j)).length) (cutBetween c d.dev d'.dev j) v.dev.file
  | flushVar (j) {d' x' v' o} (h : stepV c d x v .flush = .ok (d', x', v', o)) :
      CrashV c d x v .flush d'.next d'.dev.file (cutBetween c v.dev v'.dev j)
  | get (k) : CrashV c d x v (.get k) d.next d.dev.file v.dev.file
  | getVar (k j) {d' x' v' o} (h : stepV c d x v (.getVar k) = .ok (d', x', v', o)) :
      CrashV c d x v (.getVar k) d.next d.dev.file (cutBetween c v.dev v'.dev j)

end EDB
