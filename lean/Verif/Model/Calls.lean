import Verif.Model.Var

/-!
# A client that calls what it likes

`Call c s s'`: one call of the interface takes a table in state `s` to state `s'`.  Iterators and streams belong to the
client, so a call may use any of them, in whatever condition, in any order.
-/

namespace EDB

/-- The table: data part, index, variable data. -/
structure Trio where
  d : Data
  x : Idx
  v : Var

/-- A table started on new files (embedDB.c:139-316, 599-654, 696-722 with EMBEDDB_RESET_DATA): `rb`, `rx`, `rv`, `sm` and `hv`
are uninitialised memory. -/
def Trio.fresh (c : Cfg) (rb rx rv : Page) (sm : Nat → Nat × Nat) (hv : Bool) : Trio :=
  ⟨Data.fresh c rb sm, Idx.fresh c rx, Var.fresh c rv hv⟩

/-- One call. -/
inductive Call (c : Cfg) : Trio → Trio → Prop where
  /-- embedDB.c:1004-1127 `embedDBPut` (the location stored with the record is that of `varLoc` if there is variable data and
  not used otherwise) -/
  | put {d x v d' x' r w} (key : Nat) (data : List Byte) (loc : Nat) (e : putX c d x key data loc = .ok (d', x', r, w)) :
      Call c ⟨d, x, v⟩ ⟨d', x', v⟩
  /-- embedDB.c:1190-1271 `embedDBPutVar` -/
  | putVar {d x v d' x' v' r} (key : Nat) (data : List Byte) (vd : Option (List Byte))
      (e : putVar c d x v key data vd = .ok (d', x', v', r)) : Call c ⟨d, x, v⟩ ⟨d', x', v'⟩
  /-- embedDB.c:1667-1722 `embedDBFlush` without variable data -/
  | flush {d x v d' x' r w} (e : flushX c d x = .ok (d', x', r, w)) : Call c ⟨d, x, v⟩ ⟨d', x', v⟩
  /-- embedDB.c:1667-1722 `embedDBFlush` with variable data -/
  | flushAll {d x v d' x' v' r} (e : flushV c d x v = .ok (d', x', v', r)) : Call c ⟨d, x, v⟩ ⟨d', x', v'⟩
  /-- embedDB.c:1637-1660 `embedDBFlushVar` -/
  | flushVar {d x v} : Call c ⟨d, x, v⟩ ⟨d, x, (flushVar c v).1⟩
  /-- embedDB.c:1469-1527 `embedDBGet` -/
  | get {d x v d' r out} (key : Nat) (e : get c d key = .ok (d', r, out)) : Call c ⟨d, x, v⟩ ⟨d', x, v⟩
  /-- embedDB.c:1540-1582 `embedDBGetVar` -/
  | getVar {d x v d' v' r out st} (key : Nat) (e : getVar c d v key = .ok (d', v', r, out, st)) : Call c ⟨d, x, v⟩ ⟨d', x, v'⟩
  /-- embedDB.c:1732-1806 `embedDBNext` on any iterator -/
  | next {d x v d' x' it' out} (it : Iter) (e : next c d x it = .ok (d', x', it', out)) : Call c ⟨d, x, v⟩ ⟨d', x', v⟩
  /-- embedDB.c:1817-1850 `embedDBNextVar` on any iterator -/
  | nextVar {d x v d' x' v' it' out} (it : Iter) (e : nextVar c d x v it = .ok (d', x', v', it', out)) :
      Call c ⟨d, x, v⟩ ⟨d', x', v'⟩
  /-- embedDB.c:1927-1970 `embedDBVarDataStreamRead` on any stream -/
  | read {d x v v' st' bs} (st : Stream) (len : Nat) (e : streamRead c v st len = .ok (v', st', bs)) :
      Call c ⟨d, x, v⟩ ⟨d, x, v'⟩

/-- Any number of calls. -/
inductive Calls (c : Cfg) : Trio → Trio → Prop where
  | none (s) : Calls c s s
  | one {s t u} (h : Calls c s t) (e : Call c t u) : Calls c s u

end EDB
