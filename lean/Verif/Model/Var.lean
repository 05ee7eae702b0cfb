import Verif.Model.Index
import Verif.Spec.Var

/-!
# Model of variable-length data (`src/embedDB/embedDB.c`)

`embedDBPutVar`, `embedDBGetVar`, `embedDBNextVar`, `embedDBFlushVar`, `embedDBSetupVarDataStream`,
`embedDBVarDataStreamRead`, `writeVariablePage`, `readVariablePage`, `readToWriteBuf`.

Simplifications: `currentVarLoc` and `nextVarPageId` are natural numbers (in C `uint32_t`; `Model/VarWord.lean` has
the 32-bit positions and C72 says when they make no difference); allocation of the stream object does not fail; statistics are not modelled.  Reading or
writing past the end of a page buffer is `ub`.
-/

namespace EDB

/-- The variable-data part of `embedDBState` (embedDB.h:198-251). -/
structure Var where
  dev : Dev
  /-- EMBEDDB_VAR_WRITE_BUFFER -/
  wbuf : Page
  /-- EMBEDDB_VAR_READ_BUFFER -/
  rbuf : Page
  /-- bufferedVarPage: a physical page; `none` is the initial -1 -/
  buffered : Option Nat
  /-- currentVarLoc -/
  loc : Nat
  /-- minVarRecordId (a `uint64_t`) -/
  minRec : Nat
  /-- numAvailVarPages -/
  avail : Nat
  /-- nextVarPageId -/
  next : Nat
  /-- recordHasVarData -/
  hasVar : Bool

/-- embedDB.c:700 `state->variableDataHeaderSize`. -/
def Cfg.vhdr (c : Cfg) : Nat := c.keySize + 4

/-- embedDB.c:696-722 `embedDBInitVarData` with EMBEDDB_RESET_DATA: `rb` and `hv` are uninitialised memory. -/
def Var.fresh (c : Cfg) (rb : Page) (hv : Bool) : Var where
  dev := { file := fun _ => none, log := [], reqs := 0 }
  wbuf := fun _ => 0
  rbuf := rb
  buffered := none
  loc := c.vhdr
  minRec := 2 ^ 64 - 1
  avail := c.numVar
  next := 0
  hasVar := hv

/-- embedDB.c:2304-2323 `readVariablePage` (`true` = success). -/
def readVar (v : Var) (phys : Nat) : Var × Bool :=
  if v.buffered = some phys then (v, true)
  else match v.dev.file phys with
    | none => (v, false)
    | some p => ({ v with rbuf := p, buffered := some phys }, true)

/-- `memcpy(&m, key, keySize)` onto a `uint64_t`: the low `keySize` bytes are replaced. -/
def setLow (keySize m key : Nat) : Nat := m - m % 256 ^ keySize + key

/-- embedDB.c:2208-2219: put the page number into the header and write the page. -/
def storeVar (c : Cfg) (v : Var) : Var × Option Nat :=
  let v := { v with wbuf := wr v.wbuf 0 (leBytes 4 v.next) }
  let (dv, w) := v.dev.write c (v.next % c.numVar) v.wbuf
  let v := { v with dev := dv }
  if w then ({ v with next := v.next + 1, avail := v.avail - 1 }, some v.next) else (v, none)

/-- embedDB.c:2172-2220 `writeVariablePage` of the variable write buffer: the page number, `none` for -1.  When pages
have to be reclaimed, the last erased page is read after the erase to find out whose data is gone. -/
def writeVar (c : Cfg) (v : Var) : Var × Option Nat :=
  let phys := v.next % c.numVar
  if v.avail = 0 then
    let (dv, e) := v.dev.erase c phys (phys + c.B)
    let v := { v with dev := dv }
    if e then
      let r := readVar { v with avail := v.avail + c.B } ((phys + c.B - 1) % c.numVar)
      if r.2 then
        storeVar c { r.1 with minRec := (setLow c.keySize r.1.minRec (leNat (rd r.1.rbuf 4 c.keySize)) + 1) % 2 ^ 64 }
      else (r.1, none)
    else (v, none)
  else storeVar c v

/-- embedDB.c:1637-1660 `embedDBFlushVar`. -/
def flushVar (c : Cfg) (v : Var) : Var × Int :=
  if v.loc % c.pageSize = c.vhdr then (v, 0)
  else
    match writeVar c v with
    | (v, none) => (v, -1)
    | (v, some _) =>
      ({ v with wbuf := fun _ => 0, loc := v.loc + (c.pageSize - v.loc % c.pageSize + c.vhdr) }, 0)

/-- embedDB.c:1231-1238 and 1249-1257: if the page is complete, write it and start the next one. -/
def rollVar (c : Cfg) (key : Nat) (v : Var) : Var :=
  if v.loc % c.pageSize = 0 then
    let v := (writeVar c v).1
    { v with wbuf := wr (fun _ => 0) 4 (leBytes c.keySize key), loc := v.loc + c.vhdr }
  else v

/-- embedDB.c:1240-1258: the loop that copies the variable data into pages. -/
def putChunks (c : Cfg) (key : Nat) : Nat → Var → List Byte → Res Var
  | 0, _, _ => .fuel
  | f + 1, v, bs =>
    if bs = [] then .ok v
    else
      let n := min (c.pageSize - v.loc % c.pageSize) bs.length
      putChunks c key f
        (rollVar c key { v with wbuf := wr v.wbuf (v.loc % c.pageSize) (bs.take n), loc := v.loc + n }) (bs.drop n)

/-- embedDB.c:1200-1211: start a new variable page if the length would not fit or the data page is about to be
written. -/
def preVar (c : Cfg) (d : Data) (v : Var) : Var :=
  if v.loc % c.pageSize + 4 > c.pageSize ∨ (c.rlc = false ∧ pageCount d.wbuf ≥ c.maxRec) then
    let v := (writeVar c v).1
    { v with wbuf := fun _ => 0, loc := v.loc + (c.pageSize - v.loc % c.pageSize + c.vhdr) }
  else v

/-- embedDB.h:83 `EMBEDDB_NO_VAR_DATA`. -/
def noVar : Nat := 2 ^ 32 - 1

/-- embedDB.c:1068-1077: the location `embedDBPut` stores with the record. -/
def varLoc (c : Cfg) (v : Var) : Nat := if v.hasVar then v.loc % (c.numVar * c.pageSize) else noVar

/-- embedDB.c:1223-1258: after the record was inserted, store its variable data. -/
def storeBytes (c : Cfg) (v : Var) (key : Nat) (bs : List Byte) : Res Var :=
  let v := if v.minRec = 2 ^ 64 - 1 then { v with minRec := setLow c.keySize v.minRec key } else v
  let off := v.loc % c.pageSize
  if off + 4 > c.pageSize then .ub
  else
    let v := { v with wbuf := wr (wr v.wbuf 4 (leBytes c.keySize key)) off (leBytes 4 bs.length), loc := v.loc + 4 }
    putChunks c key (bs.length + 1) (rollVar c key v) bs

/-- embedDB.c:1190-1271 `embedDBPutVar`; `vd = none` is a NULL pointer. -/
def putVar (c : Cfg) (d : Data) (x : Idx) (v : Var) (key : Nat) (data : List Byte) (vd : Option (List Byte)) :
    Res (Data × Idx × Var × Int) :=
  if c.useVdata then
    let v := preVar c d v
    match vd with
    | none => do
      let v := { v with hasVar := false }
      let (d, x, r, _) ← putX c d x key data (varLoc c v)
      .ok (d, x, v, r)
    | some bs => do
      let v := { v with hasVar := true }
      let (d, x, r, _) ← putX c d x key data (varLoc c v)
      if r ≠ 0 then .ok (d, x, v, r)
      else
        let v ← storeBytes c v key bs
        .ok (d, x, if c.rlc then (flushVar c v).1 else v, 0)
  else .ok (d, x, v, -1)

/-- embedDB.c:1004-1127 `embedDBPut` on a table with variable data: the location stored with the record depends on the
flag the last `embedDBPutVar` left. -/
def putPlain (c : Cfg) (d : Data) (x : Idx) (v : Var) (key : Nat) (data : List Byte) : Res (Data × Idx × Var × Int) := do
  let (d, x, r, _) ← putX c d x key data (varLoc c v)
  .ok (d, x, v, r)

/-- embedDB.c:1667-1722 `embedDBFlush` on a table with variable data. -/
def flushV (c : Cfg) (d : Data) (x : Idx) (v : Var) : Res (Data × Idx × Var × Int) := do
  let (d, x, r, w) ← flushX c d x
  if r = 0 ∧ w = true then
    let f := flushVar c v
    .ok (d, x, f.1, f.2)
  else .ok (d, x, v, r)

/-- embedDB.h:263-268 `embedDBVarDataStream` (`dataStart` is not used). -/
structure Stream where
  total : Nat
  read : Nat
  off : Nat
deriving DecidableEq

/-- Location stored with the record in slot `i`. -/
def slotLoc (c : Cfg) (p : Page) (i : Nat) : Nat := leNat (rd p (slotOff c i + c.keySize + c.dataSize) 4)

/-- embedDB.c:1859-1917 `embedDBSetupVarDataStream` for slot `i` of the data read buffer: result code and stream. -/
def setupStream (c : Cfg) (d : Data) (v : Var) (key i : Nat) : Res (Var × Int × Option Stream) :=
  let addr := slotLoc c d.rbuf i
  if addr = noVar then .ok (v, 0, none)
  else if c.cmpKey key (v.minRec % 256 ^ c.keySize) < 0 then .ok (v, 1, none)
  else
    let r := readVar v (addr / c.pageSize % c.numVar)
    if r.2 then
      if addr % c.pageSize + 4 > c.pageSize then .ub
      else
        let len := leNat (rd r.1.rbuf (addr % c.pageSize) 4)
        let a := (addr + 4) % (c.numVar * c.pageSize)
        let a := if a % c.pageSize = 0 then (a + c.vhdr) % (c.numVar * c.pageSize) else a
        .ok (r.1, 0, some ⟨len, 0, a⟩)
    else .ok (r.1, 2, none)

/-- embedDB.c:1561-1581: what `embedDBGetVar` makes of the result of `embedDBSetupVarDataStream`. -/
def getCode (r : Int) : Int := if r = 0 then 0 else if r = 1 then 1 else -1

/-- embedDB.c:1540-1582 `embedDBGetVar`: return code, data, stream.  `recordNum` is an `int8_t`; if it is negative the
record is looked for outside the buffer. -/
def getVar (c : Cfg) (d : Data) (v : Var) (key : Nat) :
    Res (Data × Var × Int × Option (List Byte) × Option Stream) :=
  if c.useVdata then do
    let (r, out) ← searchBuffer c d.wbuf key
    if r ≠ -1 then
      if r < 0 then .ub
      else
        let d := { d with rbuf := d.wbuf }
        let (v, s, st) ← setupStream c d (flushVar c v).1 key r.toNat
        .ok (d, v, getCode s, out, st)
    else
      let (d, r, out) ← get c d key
      if r = 0 then
        match ← searchNode c d.rbuf key with
        | none => .ub
        | some i =>
          if toInt8 i < 0 then .ub
          else
            let (v, s, st) ← setupStream c d v key i
            .ok (d, v, getCode s, out, st)
      else .ok (d, v, -1, none, none)
  else .ok (d, v, 0, none, none)

/-- embedDB.c:1945-1967: the loop of `embedDBVarDataStreamRead`.  `acc` is what has been copied to the caller's buffer,
`len` the requested length.  If a page cannot be read the function returns 0. -/
def streamLoop (c : Cfg) (len : Nat) : Nat → Var → Stream → Nat → List Byte → Res (Var × Stream × List Byte)
  | 0, _, _, _, _ => .fuel
  | f + 1, v, st, pg, acc =>
    if acc.length < len ∧ st.read < st.total then
      let po := st.off % c.pageSize
      let n := min (st.total - st.read) (min (c.pageSize - po) (len - acc.length))
      let acc := acc ++ rd v.rbuf po n
      let st := { st with read := st.read + n, off := st.off + n }
      if acc.length < len ∧ st.read < st.total then
        let r := readVar v ((pg + 1) % c.numVar)
        if r.2 then streamLoop c len f r.1 { st with off := st.off + c.vhdr } ((pg + 1) % c.numVar) acc
        else .ok (r.1, st, [])
      else streamLoop c len f v st pg acc
    else .ok (v, st, acc)

/-- embedDB.c:1927-1970 `embedDBVarDataStreamRead` of `len` bytes into a non-null buffer: the bytes copied (their number
is the return value). -/
def streamRead (c : Cfg) (v : Var) (st : Stream) (len : Nat) : Res (Var × Stream × List Byte) :=
  let pg := st.off / c.pageSize % c.numVar
  let r := readVar v pg
  if r.2 then streamLoop c len (len + 2) r.1 st pg []
  else .ok (r.1, st, [])

/-- A client that reads the stream in pieces of the given lengths. -/
def readChunks (c : Cfg) : Var → Stream → List Nat → Res (Var × Stream × List (List Byte))
  | v, st, [] => .ok (v, st, [])
  | v, st, n :: ns => do
    let (v, st, bs) ← streamRead c v st n
    let (v, st, rest) ← readChunks c v st ns
    .ok (v, st, bs :: rest)

/-- embedDB.c:1817-1850 `embedDBNextVar`: `some (record, stream)` is result 1. -/
def nextVar (c : Cfg) (d : Data) (x : Idx) (v : Var) (it : Iter) :
    Res (Data × Idx × Var × Iter × Option ((Nat × List Byte) × Option Stream)) :=
  if c.useVdata then do
    let (d, x, it, out) ← next c d x it
    match out with
    | none => .ok (d, x, v, it, none)
    | some r =>
      let b := it.page = 0 ∧ pageCount d.wbuf > 0
      let d := if b then { d with rbuf := d.wbuf } else d
      let v := if b then (flushVar c v).1 else v
      let (v, s, st) ← setupStream c d v r.1 (it.slot - 1)
      .ok (d, x, v, it, if s = 0 ∨ s = 1 then some (r, st) else none)
  else .ok (d, x, v, it, none)

/-! ## A client -/

open Spec (VOp VOut)

/-- Read a stream completely with one call. -/
def readAll (c : Cfg) (v : Var) : Option Stream → Res (Var × Option (List Byte))
  | none => .ok (v, none)
  | some st => do
    let (v, _, bs) ← streamRead c v st st.total
    .ok (v, some bs)

/-- A client's loop `while (embedDBNextVar(...)) ...` that reads the stream of every record completely. -/
def collectV (c : Cfg) : Nat → Data → Idx → Var → Iter → Res (Data × Idx × Var × List ((Nat × List Byte) × Option (List Byte)))
  | 0, _, _, _, _ => .fuel
  | f + 1, d, x, v, it => do
    let (d, x, v, it, out) ← nextVar c d x v it
    match out with
    | none => .ok (d, x, v, [])
    | some (r, st) => do
      let (v, bs) ← readAll c v st
      let (d, x, v, rs) ← collectV c f d x v it
      .ok (d, x, v, (r, bs) :: rs)

/-- Open an iterator and read records and variable data to the end (bound as in `scanAll`). -/
def scanVar (c : Cfg) (d : Data) (x : Idx) (v : Var) (q : Spec.Range) :
    Res (Data × Idx × Var × List ((Nat × List Byte) × Option (List Byte))) := do
  let it ← initIter c d q.minKey q.maxKey q.minData q.maxData
  collectV c ((d.next + 1) * c.maxRec + 1) d x v it

/-- One client operation on a table with variable data. -/
def stepV (c : Cfg) (d : Data) (x : Idx) (v : Var) : VOp → Res (Data × Idx × Var × VOut)
  | .put k a b => do
    let (d, x, v, r) ← putVar c d x v k a b
    .ok (d, x, v, .code r)
  | .flush => do
    let (d, x, v, r) ← flushV c d x v
    .ok (d, x, v, .code r)
  | .get k => do
    let (d, r, out) ← get c d k
    .ok (d, x, v, .got r out)
  | .getVar k => do
    let (d, v, r, out, st) ← getVar c d v k
    let (v, bs) ← readAll c v st
    .ok (d, x, v, .gotVar r out bs)

/-- The observations of a client that performs the operations in order. -/
def historyV (c : Cfg) : Data → Idx → Var → List VOp → Spec.VHistory
  | _, _, _, [] => []
  | d, x, v, op :: ops =>
    match stepV c d x v op with
    | .ok (d', x', v', o) => (op, some o) :: historyV c d' x' v' ops
    | _ => [(op, none)]

/-- The state a client's operations lead to. -/
def runOpsV (c : Cfg) : Data → Idx → Var → List VOp → Res (Data × Idx × Var)
  | d, x, v, [] => .ok (d, x, v)
  | d, x, v, op :: ops => do
    let (d, x, v, _) ← stepV c d x v op
    runOpsV c d x v ops

end EDB
