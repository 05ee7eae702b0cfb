import Verif.Model.Var
import Verif.Model.Counters

/-!
# What has reached the medium

Writes to a file may stay in memory (stdio on the desktop, the page cache of SdFat) until `fileInterface->flush` of that file, and are
lost when power fails before.  The other models describe a device that keeps every operation it has carried out; this one says which
of them are certain to be kept.  `Synced` counts,
for each file, how many operations of its log were made before the last successful `fileInterface->flush` of it.  The operations themselves are those of Model/Var and Model/Index.
-/

namespace EDB

/-- For each file the number of storage operations that are on the medium for certain. -/
structure Synced where
  data : Nat
  idx : Nat
  var : Nat
deriving DecidableEq, Repr

/-- A client operation.  `fl f` is whether `fileInterface->flush` of file `f` succeeds when the operation calls it. -/
inductive SyOp where
  /-- `embedDBPut` -/
  | put (key : Nat) (data : List Byte)
  /-- `embedDBPutVar` -/
  | putVar (key : Nat) (data : List Byte) (var : Option (List Byte)) (fl : StFile → Bool)
  /-- `embedDBFlush` -/
  | flush (fl : StFile → Bool)
  /-- `embedDBGet` -/
  | get (key : Nat)
  /-- `embedDBGetVar`, and reading the variable data -/
  | getVar (key : Nat) (fl : StFile → Bool)
  /-- `embedDBNext` with the iterator `it`, which may be in any state (opening one changes nothing) -/
  | next (it : Iter)
  /-- `embedDBNextVar` with an iterator in any state -/
  | nextVar (it : Iter) (fl : StFile → Bool)
  /-- `embedDBVarDataStreamRead` of a stream in any state -/
  | stream (st : Stream) (len : Nat)

/-- embedDB.c:1637-1660 `embedDBFlushVar`: the call of `flush` in line 1652, whose answer is ignored. -/
def syncVar (c : Cfg) (fl : StFile → Bool) (v : Var) (s : Synced) : Synced :=
  if v.loc % c.pageSize = c.vhdr then s
  else
    match writeVar c v with
    | (_, none) => s
    | (v, some _) => if fl .var then { s with var := v.dev.log.length } else s

/-- embedDB.c:1667-1722 `embedDBFlush`: the calls of `flush` in lines 1681, 1702 and 1652, whose answers are ignored. -/
def syncFlush (c : Cfg) (fl : StFile → Bool) (d : Data) (x : Idx) (v : Var) (s : Synced) : Res Synced :=
  if pageCount d.wbuf < 1 then .ok s
  else do
    let (d, pn) ← writePage c d
    match pn with
    | none => .ok s
    | some _ =>
      let s := if fl .data then { s with data := d.dev.log.length } else s
      let d := indexPage c d pn
      if c.useIndex then do
        let (x, ok) ← idxFlush c x (hdrBm c d.wbuf)
        if ok then
          let s := if fl .idx then { s with idx := x.dev.log.length } else s
          .ok (if c.useVdata then syncVar c fl v s else s)
        else .ok s
      else .ok (if c.useVdata then syncVar c fl v s else s)

/-- embedDB.c:1190-1271 `embedDBPutVar`: with record-level consistency it ends with `embedDBFlushVar` (1267); nothing else in it calls
`flush`. -/
def syncPut (c : Cfg) (fl : StFile → Bool) (d : Data) (x : Idx) (v : Var) (key : Nat) (data : List Byte) (vd : Option (List Byte))
    (s : Synced) : Res Synced :=
  if c.useVdata ∧ c.rlc then
    match vd with
    | none => .ok s
    | some bs => do
      let v := { preVar c d v with hasVar := true }
      let (_, _, r, _) ← putX c d x key data (varLoc c v)
      if r ≠ 0 then .ok s
      else do
        let v ← storeBytes c v key bs
        .ok (syncVar c fl v s)
  else .ok s

/-- embedDB.c:1540-1582 `embedDBGetVar`: for a record in the write buffer it calls `embedDBFlushVar`. -/
def syncGet (c : Cfg) (fl : StFile → Bool) (d : Data) (v : Var) (key : Nat) (s : Synced) : Res Synced :=
  if c.useVdata then do
    let (r, _) ← searchBuffer c d.wbuf key
    .ok (if r ≠ -1 then syncVar c fl v s else s)
  else .ok s

/-- embedDB.c:1817-1850 `embedDBNextVar`: for a record in the write buffer it calls `embedDBFlushVar` (1834). -/
def syncNext (c : Cfg) (fl : StFile → Bool) (d : Data) (x : Idx) (v : Var) (it : Iter) (s : Synced) : Res Synced :=
  if c.useVdata then do
    let (d, _, it, out) ← next c d x it
    match out with
    | none => .ok s
    | some _ => .ok (if it.page = 0 ∧ pageCount d.wbuf > 0 then syncVar c fl v s else s)
  else .ok s

/-- One client operation: the state after it and its return code (for a stream, the number of bytes). -/
def stepSync (c : Cfg) (d : Data) (x : Idx) (v : Var) (s : Synced) : SyOp → Res (Data × Idx × Var × Synced × Int)
  | .put k a => do
    let (d, x, v, r) ← putPlain c d x v k a
    .ok (d, x, v, s, r)
  | .putVar k a b fl => do
    let s ← syncPut c fl d x v k a b s
    let (d, x, v, r) ← putVar c d x v k a b
    .ok (d, x, v, s, r)
  | .flush fl => do
    let s ← syncFlush c fl d x v s
    if c.useVdata then do
      let (d, x, v, r) ← flushV c d x v
      .ok (d, x, v, s, r)
    else do
      let (d, x, r, _) ← flushX c d x
      .ok (d, x, v, s, r)
  | .get k => do
    let (d, r, _) ← get c d k
    .ok (d, x, v, s, r)
  | .getVar k fl => do
    let s ← syncGet c fl d v k s
    let (d, v, r, _, st) ← getVar c d v k
    let (v, _) ← readAll c v st
    .ok (d, x, v, s, r)
  | .next it => do
    let (d, x, _, out) ← next c d x it
    .ok (d, x, v, s, if out.isSome then 1 else 0)
  | .nextVar it fl => do
    let s ← syncNext c fl d x v it s
    let (d, x, v, _, out) ← nextVar c d x v it
    .ok (d, x, v, s, if out.isSome then 1 else 0)
  | .stream st len => do
    let (v, _, bs) ← streamRead c v st len
    .ok (d, x, v, s, bs.length)

/-- The state a client's operations lead to. -/
def runSync (c : Cfg) : Data → Idx → Var → Synced → List SyOp → Res (Data × Idx × Var × Synced)
  | d, x, v, s, [] => .ok (d, x, v, s)
  | d, x, v, s, op :: ops => do
    let (d, x, v, s, _) ← stepSync c d x v s op
    runSync c d x v s ops

end EDB
