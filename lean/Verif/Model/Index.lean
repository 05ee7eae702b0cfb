import Verif.Model.Client

/-!
# Model of the bitmap index file

`writeIndexPage`, the index part of `embedDBPut` and `embedDBFlush`, and a client of a table with an index file.
`Verif.Model.Data` models the data part of these functions; here both are put together in the order of the C code.

A copy of a bitmap past the end of the index write buffer (it would land in the index read buffer) is `ub`.
-/

namespace EDB

open Spec (Op Out)

/-- embedDB.c:599-620, 640-652 `embedDBInitIndex` with EMBEDDB_RESET_DATA: `rb` is the uninitialised read buffer. -/
def Idx.fresh (c : Cfg) (rb : Page) : Idx where
  dev := { file := fun _ => none, log := [], reqs := 0 }
  wbuf := wr (initPage c) 8 (leBytes 4 0)
  rbuf := rb
  buffered := none
  next := 0
  min := 0
  avail := c.numIdx

/-- embedDB.c:2127-2164 `writeIndexPage` of the index write buffer.  Result: the page number, `none` for -1. -/
def writeIdx (c : Cfg) (x : Idx) : Idx × Option Nat :=
  let pageNum := x.next
  let phys := pageNum % c.numIdx
  let x := { x with next := x.next + 1, wbuf := wr x.wbuf 0 (leBytes 4 pageNum) }
  let cont (x : Idx) : Idx × Option Nat :=
    let (v, w) := x.dev.write c phys x.wbuf
    let x := { x with dev := v }
    if w then ({ x with avail := x.avail - 1 }, some pageNum) else (x, none)
  if x.avail = 0 then
    let (v, e) := x.dev.erase c phys (phys + c.B)
    let x := { x with dev := v }
    if e then cont { x with avail := x.avail + c.B, min := x.min + c.B } else (x, none)
  else cont x

/-- embedDB.c:1049-1053, 1687-1692: append the bitmap `bm` to the index write buffer. -/
def idxAppend (c : Cfg) (x : Idx) (bm : List Byte) : Res Idx :=
  let count := pageCount x.wbuf
  if 16 + c.bitmapSize * (count + 1) > c.pageSize then .ub
  else .ok { x with wbuf := wr (incCount x.wbuf) (16 + c.bitmapSize * count) bm }

/-- embedDB.c:1033-1054: the index part of `embedDBPut` after data page `pn` was written; `bm` is the bitmap in its
header.  The result of `writeIndexPage` is ignored. -/
def idxPut (c : Cfg) (x : Idx) (pn : Option Nat) (bm : List Byte) : Res Idx :=
  if pageCount x.wbuf ≥ c.maxIdx then
    idxAppend c { (writeIdx c x).1 with wbuf := wr (initPage c) 8 (leBytes 4 (pn.getD (2 ^ 32 - 1))) } bm
  else idxAppend c x bm

/-- embedDB.c:1685-1706: the index part of `embedDBFlush` (`false`: -1 is returned). -/
def idxFlush (c : Cfg) (x : Idx) (bm : List Byte) : Res (Idx × Bool) := do
  let x ← idxAppend c x bm
  match writeIdx c x with
  | (x, some _) => .ok ({ x with wbuf := initPage c }, true)
  | (x, none) => .ok (x, false)

/-- The bitmap in a data page header (embedDB.h:93 `EMBEDDB_GET_BITMAP`). -/
def hdrBm (c : Cfg) (p : Page) : List Byte := rd p 6 c.bitmapSize

/-- embedDB.c:1004-1127 `embedDBPut`. -/
def putX (c : Cfg) (d : Data) (x : Idx) (key : Nat) (data : List Byte) (loc : Nat) : Res (Data × Idx × Int × Bool) :=
  let (d, ok) := orderCheck c d key
  if ok then
    if pageCount d.wbuf ≥ c.maxRec then do
      let (d, pn) ← writePage c d
      let d := indexPage c d pn
      let x ← if c.useIndex then idxPut c x pn (hdrBm c d.wbuf) else .ok x
      let (d, r, w) ← finishPut c { d with wbuf := initPage c } true key data loc
      .ok (d, x, r, w)
    else do
      let (d, r, w) ← finishPut c d false key data loc
      .ok (d, x, r, w)
  else .ok (d, x, 1, false)

/-- embedDB.c:1667-1710 `embedDBFlush` without variable data. -/
def flushX (c : Cfg) (d : Data) (x : Idx) : Res (Data × Idx × Int × Bool) :=
  if pageCount d.wbuf < 1 then .ok (d, x, 0, false)
  else do
    let (d, pn) ← writePage c d
    match pn with
    | none => .ok (d, x, -1, false)
    | some _ =>
      let d := indexPage c d pn
      if c.useIndex then do
        let (x, ok) ← idxFlush c x (hdrBm c d.wbuf)
        if ok then .ok ({ d with wbuf := initPage c }, x, 0, true) else .ok (d, x, -1, true)
      else .ok ({ d with wbuf := initPage c }, x, 0, true)

/-- One client operation on a table with (or without) an index file and without variable data. -/
def stepX (c : Cfg) (d : Data) (x : Idx) : Op → Res (Data × Idx × Out)
  | .put k v => do
    let (d, x, r, _) ← putX c d x k v 0
    .ok (d, x, .code r)
  | .flush => do
    let (d, x, r, _) ← flushX c d x
    .ok (d, x, .code r)
  | .get k => do
    let (d, r, out) ← get c d k
    .ok (d, x, .got r out)
  | .scan q => do
    let (d, x, rs) ← scanAll c d x q
    .ok (d, x, .rows rs)

/-- The observations of a client that performs the operations in order. -/
def historyX (c : Cfg) : Data → Idx → List Op → Spec.History
  | _, _, [] => []
  | d, x, op :: ops =>
    match stepX c d x op with
    | .ok (d', x', o) => (op, some o) :: historyX c d' x' ops
    | _ => [(op, none)]

/-- The state a client's operations lead to. -/
def runOpsX (c : Cfg) : Data → Idx → List Op → Res (Data × Idx)
  | d, x, [] => .ok (d, x)
  | d, x, op :: ops => do
    let (d, x, _) ← stepX c d x op
    runOpsX c d x ops

end EDB
