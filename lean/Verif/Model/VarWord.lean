import Verif.Model.Var

/-!
# The position in the variable data as a 32-bit number (`src/embedDB/embedDB.c`)

`currentVarLoc` (embedDB.h:218, `id_t`, embedDB.h:51 `uint32_t`) counts the bytes of variable data written since the
table was opened and is never reduced to the size of the file: every `+=` wraps around at 2^32.  `fileOffset` of a stream
(embedDB.h:267) and the product `numVarPages * pageSize` are `uint32_t` as well.  The functions here are those of
`Model/Var` that add to one of these numbers or use the product, with the additions and the product modulo 2^32; `%`
by a product that wraps to 0 is `ub`.

Simplifications: as in `Model/Var`, except that the position is 32 bits wide; page numbers are natural numbers (`id_t`,
there are fewer pages than bytes); `varDataAddr + sizeof(uint32_t)` (embedDB.c:1893) is computed in 32 bits, as on the
targets where `size_t` is 32 bits.
-/

namespace EDB

/-- Arithmetic of `uint32_t`. -/
def w32 (n : Nat) : Nat := n % 2 ^ 32

/-- `state->currentVarLoc += n`. -/
def Var.advance (v : Var) (n : Nat) : Var := { v with loc := w32 (v.loc + n) }

/-- The value of `a % (state->numVarPages * state->pageSize)` (embedDB.c:1071, 1893, 1898). -/
def Cfg.inFile (c : Cfg) (a : Nat) : Res Nat :=
  if w32 (c.numVar * c.pageSize) = 0 then .ub else .ok (a % w32 (c.numVar * c.pageSize))

/-- embedDB.c:1637-1660 `embedDBFlushVar`. -/
def flushVar32 (c : Cfg) (v : Var) : Var × Int :=
  if v.loc % c.pageSize = c.vhdr then (v, 0)
  else
    match writeVar c v with
    | (v, none) => (v, -1)
    | (v, some _) => ({ v with wbuf := fun _ => 0 }.advance (c.pageSize - v.loc % c.pageSize + c.vhdr), 0)

/-- embedDB.c:1231-1238 and 1249-1257. -/
def rollVar32 (c : Cfg) (key : Nat) (v : Var) : Var :=
  if v.loc % c.pageSize = 0 then
    let v := (writeVar c v).1
    { v with wbuf := wr (fun _ => 0) 4 (leBytes c.keySize key) }.advance c.vhdr
  else v

/-- embedDB.c:1240-1258. -/
def putChunks32 (c : Cfg) (key : Nat) : Nat → Var → List Byte → Res Var
  | 0, _, _ => .fuel
  | f + 1, v, bs =>
    if bs = [] then .ok v
    else
      let n := min (c.pageSize - v.loc % c.pageSize) bs.length
      putChunks32 c key f
        (rollVar32 c key ({ v with wbuf := wr v.wbuf (v.loc % c.pageSize) (bs.take n) }.advance n)) (bs.drop n)

/-- embedDB.c:1200-1211. -/
def preVar32 (c : Cfg) (d : Data) (v : Var) : Var :=
  if v.loc % c.pageSize + 4 > c.pageSize ∨ (c.rlc = false ∧ pageCount d.wbuf ≥ c.maxRec) then
    let v := (writeVar c v).1
    { v with wbuf := fun _ => 0 }.advance (c.pageSize - v.loc % c.pageSize + c.vhdr)
  else v

/-- embedDB.c:1068-1077: the location `embedDBPut` stores with the record. -/
def varLoc32 (c : Cfg) (v : Var) : Res Nat := if v.hasVar then c.inFile v.loc else .ok noVar

/-- embedDB.c:1223-1258. -/
def storeBytes32 (c : Cfg) (v : Var) (key : Nat) (bs : List Byte) : Res Var :=
  let v := if v.minRec = 2 ^ 64 - 1 then { v with minRec := setLow c.keySize v.minRec key } else v
  let off := v.loc % c.pageSize
  if off + 4 > c.pageSize then .ub
  else
    let v := { v with wbuf := wr (wr v.wbuf 4 (leBytes c.keySize key)) off (leBytes 4 bs.length) }.advance 4
    putChunks32 c key (bs.length + 1) (rollVar32 c key v) bs

/-- embedDB.c:1190-1271 `embedDBPutVar`. -/
def putVar32 (c : Cfg) (d : Data) (x : Idx) (v : Var) (key : Nat) (data : List Byte) (vd : Option (List Byte)) :
    Res (Data × Idx × Var × Int) :=
  if c.useVdata then
    let v := preVar32 c d v
    match vd with
    | none => do
      let v := { v with hasVar := false }
      let a ← varLoc32 c v
      let (d, x, r, _) ← putX c d x key data a
      .ok (d, x, v, r)
    | some bs => do
      let v := { v with hasVar := true }
      let a ← varLoc32 c v
      let (d, x, r, _) ← putX c d x key data a
      if r ≠ 0 then .ok (d, x, v, r)
      else
        let v ← storeBytes32 c v key bs
        .ok (d, x, if c.rlc then (flushVar32 c v).1 else v, 0)
  else .ok (d, x, v, -1)

/-- embedDB.c:1667-1722 `embedDBFlush` on a table with variable data. -/
def flushV32 (c : Cfg) (d : Data) (x : Idx) (v : Var) : Res (Data × Idx × Var × Int) := do
  let (d, x, r, w) ← flushX c d x
  if r = 0 ∧ w = true then
    let f := flushVar32 c v
    .ok (d, x, f.1, f.2)
  else .ok (d, x, v, r)

/-- embedDB.c:1859-1917 `embedDBSetupVarDataStream`. -/
def setupStream32 (c : Cfg) (d : Data) (v : Var) (key i : Nat) : Res (Var × Int × Option Stream) :=
  let addr := slotLoc c d.rbuf i
  if addr = noVar then .ok (v, 0, none)
  else if c.cmpKey key (v.minRec % 256 ^ c.keySize) < 0 then .ok (v, 1, none)
  else
    let r := readVar v (addr / c.pageSize % c.numVar)
    if r.2 then
      if addr % c.pageSize + 4 > c.pageSize then .ub
      else do
        let len := leNat (rd r.1.rbuf (addr % c.pageSize) 4)
        let a ← c.inFile (w32 (addr + 4))
        let a ← if a % c.pageSize = 0 then c.inFile (w32 (a + c.vhdr)) else .ok a
        .ok (r.1, 0, some ⟨len, 0, a⟩)
    else .ok (r.1, 2, none)

/-- embedDB.c:1540-1582 `embedDBGetVar`. -/
def getVar32 (c : Cfg) (d : Data) (v : Var) (key : Nat) :
    Res (Data × Var × Int × Option (List Byte) × Option Stream) :=
  if c.useVdata then do
    let (r, out) ← searchBuffer c d.wbuf key
    if r ≠ -1 then
      if r < 0 then .ub
      else
        let d := { d with rbuf := d.wbuf }
        let (v, s, st) ← setupStream32 c d (flushVar32 c v).1 key r.toNat
        .ok (d, v, getCode s, out, st)
    else
      let (d, r, out) ← get c d key
      if r = 0 then
        match ← searchNode c d.rbuf key with
        | none => .ub
        | some i =>
          if toInt8 i < 0 then .ub
          else
            let (v, s, st) ← setupStream32 c d v key i
            .ok (d, v, getCode s, out, st)
      else .ok (d, v, -1, none, none)
  else .ok (d, v, 0, none, none)

/-- embedDB.c:1945-1967: the loop of `embedDBVarDataStreamRead`. -/
def streamLoop32 (c : Cfg) (len : Nat) : Nat → Var → Stream → Nat → List Byte → Res (Var × Stream × List Byte)
  | 0, _, _, _, _ => .fuel
  | f + 1, v, st, pg, acc =>
    if acc.length < len ∧ st.read < st.total then
      let po := st.off % c.pageSize
      let n := min (st.total - st.read) (min (c.pageSize - po) (len - acc.length))
      let acc := acc ++ rd v.rbuf po n
      let st := { st with read := st.read + n, off := w32 (st.off + n) }
      if acc.length < len ∧ st.read < st.total then
        let r := readVar v ((pg + 1) % c.numVar)
        if r.2 then streamLoop32 c len f r.1 { st with off := w32 (st.off + c.vhdr) } ((pg + 1) % c.numVar) acc
        else .ok (r.1, st, [])
      else streamLoop32 c len f v st pg acc
    else .ok (v, st, acc)

/-- embedDB.c:1927-1970 `embedDBVarDataStreamRead`. -/
def streamRead32 (c : Cfg) (v : Var) (st : Stream) (len : Nat) : Res (Var × Stream × List Byte) :=
  let pg := st.off / c.pageSize % c.numVar
  let r := readVar v pg
  if r.2 then streamLoop32 c len (len + 2) r.1 st pg []
  else .ok (r.1, st, [])

/-! ## A client -/

open Spec (VOp VOut)

/-- Read a stream completely with one call. -/
def readAll32 (c : Cfg) (v : Var) : Option Stream → Res (Var × Option (List Byte))
  | none => .ok (v, none)
  | some st => do
    let (v, _, bs) ← streamRead32 c v st st.total
    .ok (v, some bs)

/-- One client operation on a table with variable data. -/
def stepV32 (c : Cfg) (d : Data) (x : Idx) (v : Var) : VOp → Res (Data × Idx × Var × VOut)
  | .put k a b => do
    let (d, x, v, r) ← putVar32 c d x v k a b
    .ok (d, x, v, .code r)
  | .flush => do
    let (d, x, v, r) ← flushV32 c d x v
    .ok (d, x, v, .code r)
  | .get k => do
    let (d, r, out) ← get c d k
    .ok (d, x, v, .got r out)
  | .getVar k => do
    let (d, v, r, out, st) ← getVar32 c d v k
    let (v, bs) ← readAll32 c v st
    .ok (d, x, v, .gotVar r out bs)

/-- The observations of a client that performs the operations in order. -/
def historyV32 (c : Cfg) : Data → Idx → Var → List VOp → Spec.VHistory
  | _, _, _, [] => []
  | d, x, v, op :: ops =>
    match stepV32 c d x v op with
    | .ok (d', x', v', o) => (op, some o) :: historyV32 c d' x' v' ops
    | _ => [(op, none)]

/-- The state a client's operations lead to. -/
def runOpsV32 (c : Cfg) : Data → Idx → Var → List VOp → Res (Data × Idx × Var)
  | d, x, v, [] => .ok (d, x, v)
  | d, x, v, op :: ops => do
    let (d, x, v, _) ← stepV32 c d x v op
    runOpsV32 c d x v ops

end EDB
