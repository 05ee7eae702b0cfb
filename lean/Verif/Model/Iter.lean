import Verif.Model.Data
import Verif.Model.Utility

/-!
# Model of the iterator of `src/embedDB/embedDB.c`

`embedDBInitIterator`, `embedDBNext` and the part of the bitmap index file state they use.

Simplification: `embedDBNext` copies every record it examines to the caller's `key`/`data` before testing it; the
model returns the record only when the C function returns 1 (with result 0 the caller's buffers are unspecified).
-/

namespace EDB

/-- The index-file part of `embedDBState` (embedDB.h:198-251). -/
structure Idx where
  dev : Dev
  /-- EMBEDDB_INDEX_WRITE_BUFFER -/
  wbuf : Page
  /-- EMBEDDB_INDEX_READ_BUFFER -/
  rbuf : Page
  /-- bufferedIndexPageId; `none` is the initial -1 -/
  buffered : Option Nat
  /-- nextIdxPageId -/
  next : Nat
  /-- minIndexPageId -/
  min : Nat
  /-- numAvailIndexPages -/
  avail : Nat

/-- embedDB.c:603 `state->maxIdxRecordsPerPage`. -/
def Cfg.maxIdx (c : Cfg) : Nat := (c.pageSize - 16) / c.bitmapSize

/-- embedDB.c:2279-2296 `readIndexPage` (`true` = success). -/
def readIdx (x : Idx) (phys : Nat) : Idx × Bool :=
  if x.buffered = some phys then (x, true)
  else match x.dev.file phys with
    | none => (x, false)
    | some p => ({ x with rbuf := p, buffered := some phys }, true)

/-- embedDB.c:79-85 `bitmapOverlap` on two bitmaps of `bitmapSize` bytes. -/
def bitmapOverlap (a b : List Byte) : Bool := (a.zip b).any fun xy => xy.1 &&& xy.2 ≠ 0

/-- embedDB.h:253-261 `embedDBIterator`; a NULL pointer is `none`. -/
structure Iter where
  page : Nat
  slot : Nat
  minKey : Option Nat
  maxKey : Option Nat
  minData : Option (List Byte)
  maxData : Option (List Byte)
  qbm : Option (List Byte)

/-- embedDB.c:1589-1620 `embedDBInitIterator`.  The bounds are fields the caller has set in the iterator.
In binary-search mode `state->spl` was never allocated (embedDB.c:214) but `state->spl->count` is evaluated first. -/
def initIter (c : Cfg) (d : Data) (minKey maxKey : Option Nat) (minData maxData : Option (List Byte)) : Res Iter :=
  let qbm := if c.useBmap && (minData.isSome || maxData.isSome) then some (c.buildBm minData maxData) else none
  let at_ (p : Nat) : Iter := { page := p, slot := 0, minKey, maxKey, minData, maxData, qbm }
  if c.binSearch then .ub
  else if d.spl.count ≠ 0 then
    match minKey with
    | some k => do
      let r ← d.spl.find c.cmpKey k
      .ok (at_ (max r.low d.min))
    | none => .ok (at_ d.min)
  else .ok (at_ d.min)

/-- embedDB.c:1776-1797: examine the records of one page from slot `i` on (`f` = number of records left).
Result: the new `nextDataRec` and: `none` – page exhausted; `some none` – return 0 (key above maxKey);
`some (some r)` – return 1 with record `r`. -/
def recLoop (c : Cfg) (it : Iter) (p : Page) : Nat → Nat → Nat × Option (Option (Nat × List Byte))
  | 0, i => (i, none)
  | f + 1, i =>
    let k := slotKey c p i
    let v := slotData c p i
    if it.minKey.any (fun b => c.cmpKey k b < 0) then recLoop c it p f (i + 1)
    else if it.maxKey.any (fun b => c.cmpKey k b > 0) then (i + 1, some none)
    else if it.minData.any (fun b => c.cmpData v b < 0) then recLoop c it p f (i + 1)
    else if it.maxData.any (fun b => c.cmpData v b > 0) then recLoop c it p f (i + 1)
    else (i + 1, some (some (k, v)))

/-- embedDB.c:1743-1766: does the index say that this page need not be read?  (`none`: the index page could not be
read and `embedDBNext` returns 0.)  Without an index file `maxIdxRecordsPerPage` is uninitialised memory that the
code divides by: undefined behaviour. -/
def idxSkip (c : Cfg) (x : Idx) (it : Iter) : Res (Idx × Option Bool) :=
  match it.qbm with
  | none => .ok (x, some false)
  | some q =>
    if it.slot = 0 then
      if c.useIndex = false ∨ c.maxIdx = 0 then .ub
      else
        let ip := it.page / c.maxIdx
        if x.min ≤ ip ∧ ip < x.next then
          let (x, ok) := readIdx x (ip % c.numIdx)
          if ok then
            let bm := rd x.rbuf (16 + it.page % c.maxIdx * c.bitmapSize) c.bitmapSize
            .ok (x, some (!bitmapOverlap q bm))
          else .ok (x, none)
        else .ok (x, some false)
    else .ok (x, some false)

/-- embedDB.c:1732-1806 `embedDBNext`, the outer loop. -/
def nextLoop (c : Cfg) : Nat → Data → Idx → Iter → Res (Data × Idx × Iter × Option (Nat × List Byte))
  | 0, _, _, _ => .fuel
  | f + 1, d, x, it =>
    if it.page > d.next then .ok (d, x, it, none)
    else do
      let (x, sk) ← idxSkip c x it
      match sk with
      | none => .ok (d, x, it, none)
      | some true => nextLoop c f d x { it with page := it.page + 1 }
      | some false =>
        let (d, ok) := if it.page = d.next then (d, true) else readPage d (it.page % c.N)
        if ok then
          let p := if it.page = d.next then d.wbuf else d.rbuf
          match recLoop c it p (pageCount p - it.slot) it.slot with
          | (_, none) => nextLoop c f d x { it with page := it.page + 1, slot := 0 }
          | (i, some out) => .ok (d, x, { it with slot := i }, out)
        else .ok (d, x, it, none)

/-- embedDB.c:1732-1806 `embedDBNext`: `some r` is result 1 with record `r`, `none` is result 0. -/
def next (c : Cfg) (d : Data) (x : Idx) (it : Iter) : Res (Data × Idx × Iter × Option (Nat × List Byte)) :=
  nextLoop c (d.next + 1 - it.page + 1) d x it

end EDB
