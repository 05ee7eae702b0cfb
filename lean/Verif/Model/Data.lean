import Verif.Model.Spline

/-!
# Model of the data file path of `src/embedDB/embedDB.c`

Configuration, page layout, storage device, page cache, `embedDBPut` (fixed-size part), `embedDBFlush`
(data part), `embedDBGet`.

Simplifications common to the whole file:
* page numbers and counters are unbounded naturals (in C `uint32_t`; `linearSearch` uses `int32_t`);
* a failing device `read` leaves the read buffer unchanged; a failing `write`/`erase` leaves the storage
  unchanged; page writes are atomic;
* the statistics `numIdx*`/`maxError` that influence no result are omitted.
-/

namespace EDB

/-- The fields of `embedDBState` that are constant after `embedDBInit` (embedDB.h:198-251), together with the
user-supplied callbacks and the behaviour of the storage device and of floating-point estimation. -/
structure Cfg where
  pageSize : Nat
  keySize : Nat
  dataSize : Nat
  bitmapSize : Nat
  /-- numDataPages -/
  N : Nat
  /-- eraseSizeInPages -/
  B : Nat
  /-- numIndexPages -/
  numIdx : Nat
  /-- numVarPages -/
  numVar : Nat
  /-- numSplinePoints -/
  splSize : Nat
  /-- indexMaxError -/
  maxErr : Nat
  /-- EMBEDDB_USE_INDEX -/
  useIndex : Bool
  /-- EMBEDDB_USE_MAX_MIN -/
  useMaxMin : Bool
  /-- EMBEDDB_USE_BMAP -/
  useBmap : Bool
  /-- EMBEDDB_USE_VDATA -/
  useVdata : Bool
  /-- EMBEDDB_RECORD_LEVEL_CONSISTENCY -/
  rlc : Bool
  /-- EMBEDDB_USE_BINARY_SEARCH -/
  binSearch : Bool
  /-- EMBEDDB_DISABLE_SPLINE_CLEAN -/
  noClean : Bool
  /-- user's `compareKey`, as a function of the unsigned values of the two keys' bytes -/
  cmpKey : Nat → Nat → Int
  /-- user's `compareData` -/
  cmpData : List Byte → List Byte → Int
  /-- user's `updateBitmap`: data, old bitmap bytes ↦ new bitmap bytes -/
  updBm : List Byte → List Byte → List Byte
  /-- user's `buildBitmapFromRange`, on a zeroed bitmap -/
  buildBm : Option (List Byte) → Option (List Byte) → List Byte
  /-- result of the floating point estimate `embedDBEstimateKeyLocation` (embedDB.c:1279-1289) for a page and
  a key: an arbitrary integer -/
  est : Page → Nat → Int
  /-- what the device's `erase` does to the content of one page (`none`: reading the page fails) -/
  eraseFx : Option Page → Option Page
  /-- does the n-th write/erase request to a device succeed? -/
  ioOk : Nat → Bool

namespace Cfg

/-- embedDB.c:162-171 `state->recordSize` (in C an `int8_t`). -/
def recSize (c : Cfg) : Nat := c.keySize + c.dataSize + (if c.useVdata then 4 else 0)

/-- embedDB.c:178-190 `state->headerSize` (in C an `int8_t`). -/
def hdr (c : Cfg) : Nat :=
  6 + (if c.useIndex then c.bitmapSize else 0) + (if c.useMaxMin then c.keySize * 2 + c.dataSize * 2 else 0)

/-- embedDB.c:198 `state->maxRecordsPerPage`. -/
def maxRec (c : Cfg) : Nat := (c.pageSize - c.hdr) / c.recSize

end Cfg

/-! ## Page layout -/

/-- embedDB.h:80 `EMBEDDB_MIN_OFFSET`. -/
def minOff : Nat := 14

/-- First four header bytes: logical page id (embedDB.c:2004). -/
def pageId (p : Page) : Nat := leNat (rd p 0 4)

/-- embedDB.h:90 `EMBEDDB_GET_COUNT`. -/
def pageCount (p : Page) : Nat := leNat (rd p 4 2)

/-- embedDB.h:91 `EMBEDDB_INC_COUNT` (a `uint16_t`). -/
def incCount (p : Page) : Page := wr p 4 (leBytes 2 (pageCount p + 1))

/-- Byte offset of record slot `i` (e.g. embedDB.c:1064). -/
def slotOff (c : Cfg) (i : Nat) : Nat := c.recSize * i + c.hdr

/-- Key stored in slot `i`. -/
def slotKey (c : Cfg) (p : Page) (i : Nat) : Nat := leNat (rd p (slotOff c i) c.keySize)

/-- Data bytes stored in slot `i`. -/
def slotData (c : Cfg) (p : Page) (i : Nat) : List Byte := rd p (slotOff c i + c.keySize) c.dataSize

/-- embedDB.c:119-121 `embedDBGetMinKey`. -/
def pageMinKey (c : Cfg) (p : Page) : Nat := slotKey c p 0

/-- embedDB.c:128-131 `embedDBGetMaxKey`.  (For an empty page C would read before the record area; every use
in the theorems is on a page proved non-empty.) -/
def pageMaxKey (c : Cfg) (p : Page) : Nat := slotKey c p (pageCount p - 1)

/-- embedDB.c:87-112 `initBufferPage` for a data or index buffer: zero the page, then fill the "min key" and
"min data" header areas with bytes 1 (whether or not MAX_MIN is enabled). -/
def initPage (c : Cfg) : Page :=
  let p : Page := fun _ => 0
  let p := wr p minOff (List.replicate c.keySize 1)
  wr p (minOff + c.keySize * 2) (List.replicate c.dataSize 1)

/-! ## Storage device -/

/-- One storage operation that reached the device. -/
inductive Ev where
  /-- page `phys` was written -/
  | write (phys : Nat) (p : Page)
  /-- pages `[lo, hi)` were erased -/
  | erase (lo hi : Nat)

/-- A file behind `embedDBFileInterface` (embedDB.h:147-196). `log` is a history variable (all operations that
took effect, oldest first); `reqs` counts the write/erase requests made. -/
structure Dev where
  file : Nat → Option Page
  log : List Ev
  reqs : Nat

namespace Dev

/-- `fileInterface->write`. -/
def write (c : Cfg) (v : Dev) (phys : Nat) (p : Page) : Dev × Bool :=
  if c.ioOk v.reqs then
    ({ file := fun i => if i = phys then some p else v.file i
       log := v.log ++ [.write phys p]
       reqs := v.reqs + 1 }, true)
  else ({ v with reqs := v.reqs + 1 }, false)

/-- `fileInterface->erase` of pages `[lo, hi)`. -/
def erase (c : Cfg) (v : Dev) (lo hi : Nat) : Dev × Bool :=
  if c.ioOk v.reqs then
    ({ file := fun i => if lo ≤ i ∧ i < hi then c.eraseFx (v.file i) else v.file i
       log := v.log ++ [.erase lo hi]
       reqs := v.reqs + 1 }, true)
  else ({ v with reqs := v.reqs + 1 }, false)

end Dev

/-! ## State of the data part -/

/-- The data-file part of `embedDBState` (embedDB.h:198-251). -/
structure Data where
  dev : Dev
  /-- EMBEDDB_DATA_WRITE_BUFFER -/
  wbuf : Page
  /-- EMBEDDB_DATA_READ_BUFFER -/
  rbuf : Page
  /-- bufferedPageId: the *physical* page in the read buffer; `none` is the initial -1 -/
  buffered : Option Nat
  /-- nextDataPageId -/
  next : Nat
  /-- minDataPageId -/
  min : Nat
  /-- numAvailDataPages -/
  avail : Nat
  spl : Spline
  /-- nextRLCPhysicalPageLocation -/
  rlcNext : Nat
  /-- rlcPhysicalStartingPage -/
  rlcStart : Nat
  /-- numReads -/
  numReads : Nat

/-- embedDB.c:139-316 `embedDBInit`/`embedDBInitData` with EMBEDDB_RESET_DATA (a new, empty data file).
`rb` is the uninitialised content of the read buffer, `sm` the uninitialised memory of the spline ring. -/
def Data.fresh (c : Cfg) (rb : Page) (sm : Nat → Nat × Nat) : Data where
  dev := { file := fun _ => none, log := [], reqs := 0 }
  wbuf := initPage c
  rbuf := rb
  buffered := none
  next := 0
  min := 0
  avail := if c.rlc then c.N - c.B * 2 else c.N
  spl := Spline.init c.splSize c.maxErr sm
  rlcNext := c.B
  rlcStart := c.B
  numReads := 0

/-- embedDB.c:2254-2271 `readPage` (`true` = success). -/
def readPage (d : Data) (phys : Nat) : Data × Bool :=
  if d.buffered = some phys then (d, true)
  else match d.dev.file phys with
    | none => (d, false)
    | some p => ({ d with rbuf := p, buffered := some phys, numReads := d.numReads + 1 }, true)

/-- embedDB.c:2020-2023: remove spline points of reclaimed pages.  In binary-search mode `state->spl` was
never allocated (embedDB.c:214), so `cleanSpline` dereferences an uninitialised pointer. -/
def cleanStep (c : Cfg) (d : Data) : Res Data :=
  if c.noClean then .ok d
  else if c.binSearch then .ub
  else .ok { d with spl := d.spl.clean d.min }

/-- embedDB.c:1995-2039 `writePage` of the data write buffer.  Result: the page number, `none` for -1. -/
def writePage (c : Cfg) (d : Data) : Res (Data × Option Nat) :=
  let pageNum := d.next
  let phys := pageNum % c.N
  let d := { d with next := d.next + 1, wbuf := wr d.wbuf 0 (leBytes 4 pageNum) }
  let cont (d : Data) : Res (Data × Option Nat) :=
    let (v, w) := d.dev.write c phys d.wbuf
    let d := { d with dev := v }
    if w then .ok ({ d with avail := d.avail - 1 }, some pageNum) else .ok (d, none)
  if d.avail = 0 then
    let (v, e) := d.dev.erase c phys (phys + c.B)
    let d := { d with dev := v }
    if e then do
      let d ← cleanStep c { d with avail := d.avail + c.B, min := d.min + c.B }
      cont d
    else .ok (d, none)
  else cont d

/-- embedDB.c:991-995 `indexPage`.  `pageNum` is a `uint32_t`, so the error value -1 is 2^32-1. -/
def indexPage (c : Cfg) (d : Data) (pageNum : Option Nat) : Data :=
  if c.binSearch then d
  else { d with spl := d.spl.add (pageMinKey c d.wbuf) (pageNum.getD (2 ^ 32 - 1)) }

/-- embedDB.c:1007-1023: the order check of `embedDBPut`.  Result: may the key be inserted?
When the write buffer is empty the previous key is read from slot `maxRecordsPerPage - 1` of the last page. -/
def orderCheck (c : Cfg) (d : Data) (key : Nat) : Data × Bool :=
  let count := pageCount d.wbuf
  if d.next > 0 ∨ count > 0 then
    if count = 0 then
      let d := (readPage d ((d.next - 1) % c.N)).1
      (d, c.cmpKey key (slotKey c d.rbuf (c.maxRec - 1)) = 1)
    else (d, c.cmpKey key (slotKey c d.wbuf (count - 1)) = 1)
  else (d, true)

/-- embedDB.c:1025-1061 without the index file: write the full page, add it to the spline, start a new page. -/
def putPage (c : Cfg) (d : Data) : Res Data := do
  let (d, pn) ← writePage c d
  let d := indexPage c d pn
  .ok { d with wbuf := initPage c }

/-- embedDB.c:1081-1108: maintain the min/max header fields; `count` is the number of records before this one. -/
def updMinMax (c : Cfg) (p : Page) (count key : Nat) (data : List Byte) : Page :=
  let kb := leBytes c.keySize key
  let maxKeyOff := minOff + c.keySize
  let minDataOff := minOff + c.keySize * 2
  let maxDataOff := minOff + c.keySize * 2 + c.dataSize
  if count ≠ 0 then
    let p := wr p maxKeyOff kb
    let p := if c.cmpData data (rd p minDataOff c.dataSize) < 0 then wr p minDataOff data else p
    if c.cmpData data (rd p maxDataOff c.dataSize) > 0 then wr p maxDataOff data else p
  else
    let p := wr p minOff kb
    let p := wr p maxKeyOff kb
    let p := wr p minDataOff data
    wr p maxDataOff data

/-- embedDB.c:1110-1114: `updateBitmap` on the header bitmap (offset 6, embedDB.h:78). -/
def updHdrBm (c : Cfg) (p : Page) (data : List Byte) : Page :=
  wr p 6 (c.updBm data (rd p 6 c.bitmapSize))

/-- embedDB.c:1063-1114: copy the record (and, with variable data, its location `loc`) into the next slot,
increment the count, maintain min/max and bitmap. -/
def appendRec (c : Cfg) (p : Page) (key : Nat) (data : List Byte) (loc : Nat) : Page :=
  let count := pageCount p
  let p := wr p (slotOff c count) (leBytes c.keySize key)
  let p := wr p (slotOff c count + c.keySize) data
  let p := if c.useVdata then wr p (slotOff c count + c.keySize + c.dataSize) (leBytes 4 loc) else p
  let p := incCount p
  let p := if c.useMaxMin then updMinMax c p count key data else p
  if c.useBmap then updHdrBm c p data else p

/-! ## Record-level consistency -/

/-- embedDB.c:1141-1152: erase `n` consecutive blocks starting at `start` (wrapping). -/
def eraseBlocks (c : Cfg) (v : Dev) (start : Nat) : Nat → Dev × Bool
  | 0 => (v, true)
  | n + 1 =>
    let (v, e) := v.erase c start (start + c.B)
    if e then eraseBlocks c v ((start + c.B) % c.N) n else (v, false)

/-- embedDB.c:1129-1171 `shiftRecordLevelConsistencyBlocks` (its return value is ignored by `embedDBPut`). -/
def shiftRlc (c : Cfg) (d : Data) : Res Data :=
  let haveWrapped := d.min % c.N = (d.rlcStart + c.B * 2) % c.N
  let numBlocks := if haveWrapped then 2 else 3
  let (v, e) := eraseBlocks c d.dev d.rlcStart numBlocks
  let d := { d with dev := v }
  if e then do
    let d ← if haveWrapped then
        cleanStep c { d with avail := d.avail + c.B, min := d.min + c.B }
      else .ok d
    let start := (d.rlcStart + c.B) % c.N
    .ok { d with rlcStart := start, rlcNext := start }
  else .ok d

/-- embedDB.c:2053-2062: the physical location the temporary page will be written to. -/
def rlcLoc (c : Cfg) (d : Data) : Nat :=
  let n := d.rlcNext % c.N
  let nextPage := n + (if n < d.rlcStart then c.N else 0)
  if nextPage - d.rlcStart ≥ c.B * 2 then d.rlcStart else n

/-- embedDB.c:2041-2092 `writeTemporaryPage`.  Result: its return code.  (If the erase fails, C returns -2
only when PRINT_ERRORS is defined; the model carries on as without PRINT_ERRORS.) -/
def writeTemp (c : Cfg) (d : Data) : Data × Int :=
  let d := { d with wbuf := wr d.wbuf 0 (leBytes 4 d.next) }
  let loc := rlcLoc c d
  let v := if loc % c.B = 1 then
      let es := if loc = d.rlcStart + 1 then (d.rlcStart + c.B) % c.N else d.rlcStart
      (d.dev.erase c es (es + c.B)).1
    else d.dev
  let (v, w) := v.write c loc d.wbuf
  ({ d with dev := v, rlcNext := loc + 1 }, if w then 0 else -1)

/-! ## embedDBPut and embedDBFlush, data part -/

/-- embedDB.c:1063-1126: the end of `embedDBPut`, after a full page has been written (`wrote`) or not: store the
record and, with record-level consistency, write the temporary page. -/
def finishPut (c : Cfg) (d : Data) (wrote : Bool) (key : Nat) (data : List Byte) (loc : Nat) :
    Res (Data × Int × Bool) :=
  let d := { d with wbuf := appendRec c d.wbuf key data loc }
  if c.rlc then
    if wrote ∧ d.next % c.B = 0 then do
      let d ← shiftRlc c d
      .ok ((writeTemp c d).1, (writeTemp c d).2, wrote)
    else .ok ((writeTemp c d).1, (writeTemp c d).2, wrote)
  else .ok (d, 0, wrote)

/-- embedDB.c:1004-1127 `embedDBPut` without the index file (see `Verif.Model.DB.put` for the whole function).
`loc` is the variable-data location stored with the record.  Result: return code and whether a page was
written. -/
def putD (c : Cfg) (d : Data) (key : Nat) (data : List Byte) (loc : Nat) : Res (Data × Int × Bool) :=
  let (d, ok) := orderCheck c d key
  if ok then
    if pageCount d.wbuf ≥ c.maxRec then do
      let d ← putPage c d
      finishPut c d true key data loc
    else finishPut c d false key data loc
  else .ok (d, 1, false)

/-- embedDB.c:1667-1683,1709 `embedDBFlush` without index and variable data.  Result: return code and whether
a page was written. -/
def flushD (c : Cfg) (d : Data) : Res (Data × Int × Bool) :=
  if pageCount d.wbuf < 1 then .ok (d, 0, false)
  else do
    let (d, pn) ← writePage c d
    match pn with
    | none => .ok (d, -1, false)
    | some _ =>
      let d := indexPage c d pn
      .ok ({ d with wbuf := initPage c }, 0, true)

/-! ## embedDBGet -/

/-- embedDB.c:1320-1335: the loop of `embedDBSearchNode` with `range = 0`; `none` is -1. -/
def nodeLoop (c : Cfg) (p : Page) (key : Nat) : Nat → Int → Int → Int → Res (Option Nat)
  | 0, _, _, _ => .fuel
  | f + 1, first, last, middle =>
    if first ≤ last then
      let cmp := c.cmpKey (slotKey c p middle.toNat) key
      if cmp < 0 then
        let first := middle + 1
        nodeLoop c p key f first last ((first + last).tdiv 2)
      else if cmp = 0 then .ok (some middle.toNat)
      else
        let last := middle - 1
        nodeLoop c p key f first last ((first + last).tdiv 2)
    else .ok none

/-- embedDB.c:1298-1335 `embedDBSearchNode` (`range = 0`).  `state->maxError` starts at `maxRecordsPerPage` and
only grows, so the test `maxError == -1` is always false and omitted. -/
def searchNode (c : Cfg) (p : Page) (key : Nat) : Res (Option Nat) :=
  let count := pageCount p
  let e := c.est p key
  let last : Int := (count : Int) - 1
  let middle := if e ≥ count ∨ e ≤ 0 then last.tdiv 2 else e
  let middle := if middle > last then last else middle
  nodeLoop c p key (count + 1) 0 last middle

/-- C conversion of a value to `int8_t`. -/
def toInt8 (n : Nat) : Int :=
  let m := n % 256
  if m < 128 then m else (m : Int) - 256

/-- embedDB.c:1443-1458 `searchBuffer`: the `int8_t` result and the data copied out (if any). -/
def searchBuffer (c : Cfg) (p : Page) (key : Nat) : Res (Int × Option (List Byte)) :=
  if pageCount p = 0 then .ok (-1, none)
  else do
    match ← searchNode c p key with
    | some i => .ok (toInt8 i, some (slotData c p i))
    | none => .ok (-1, none)

/-- embedDB.c:1350-1377 `linearSearch` (`true` = 0, page found; `false` = -1). -/
def linSearch (c : Cfg) (key : Nat) : Nat → Data → Int → Int → Int → Res (Data × Bool)
  | 0, _, _, _, _ => .fuel
  | f + 1, d, pageId, low, high =>
    if pageId > high ∨ pageId < low ∨ low > high ∨ pageId < d.min ∨ pageId ≥ d.next then .ok (d, false)
    else
      let (d, r) := readPage d (pageId.toNat % c.N)
      if r then
        if c.cmpKey key (pageMinKey c d.rbuf) < 0 then
          linSearch c key f d (pageId - 1) low (pageId - 1)
        else if c.cmpKey key (pageMaxKey c d.rbuf) > 0 then
          linSearch c key f d (pageId + 1) (pageId + 1) high
        else .ok (d, true)
      else .ok (d, false)

/-- embedDB.c:1405-1431 `splineSearch`. -/
def splineSearch (c : Cfg) (d : Data) (key : Nat) : Res (Data × Bool) := do
  let r ← d.spl.find c.cmpKey key
  if r.high < d.min then .ok (d, false)
  else
    let low := if r.low < d.min then d.min else r.low
    let loc := if r.low < d.min then (d.min + r.high) / 2 else r.loc
    let cached := match d.buffered with
      | none => false
      | some b => decide (low ≤ b ∧ r.high ≥ b ∧
          c.cmpKey (pageMinKey c d.rbuf) key ≤ 0 ∧ c.cmpKey (pageMaxKey c d.rbuf) key ≥ 0)
    if cached then .ok (d, true)
    else linSearch c key (r.high - low + 2) d loc low r.high

/-- C arithmetic on `uint32_t`. -/
def u32sub (a b : Nat) : Nat := if b ≤ a then a - b else a + 2 ^ 32 - b

/-- embedDB.c:1379-1403 `binarySearch`.  When the loop is left by `break` the function ends without a `return`
although the caller uses its value: undefined behaviour. -/
def binSearchLoop (c : Cfg) (key : Nat) : Nat → Data → Nat → Nat → Nat → Res (Data × Bool)
  | 0, _, _, _, _ => .fuel
  | f + 1, d, first, last, pageId =>
    let (d, r) := readPage d (pageId % c.N)
    if r then
      if first ≥ last then .ub
      else if c.cmpKey key (pageMinKey c d.rbuf) < 0 then
        let last := u32sub pageId 1
        binSearchLoop c key f d first last ((first + last) % 2 ^ 32 / 2)
      else if c.cmpKey key (pageMaxKey c d.rbuf) > 0 then
        let first := pageId + 1
        binSearchLoop c key f d first last ((first + last) % 2 ^ 32 / 2)
      else .ok (d, true)
    else .ok (d, false)

/-- embedDB.c:1379-1403 `binarySearch` (the loop bound is never reached on a table: `get_bin`). -/
def binPageSearch (c : Cfg) (d : Data) (key : Nat) : Res (Data × Bool) :=
  binSearchLoop c key 80 d d.min (d.next - 1) ((d.min + (d.next - 1)) % 2 ^ 32 / 2)

/-- embedDB.c:1502-1526: the part of `embedDBGet` that looks in the stored pages. -/
def getStored (c : Cfg) (d : Data) (key : Nat) : Res (Data × Int × Option (List Byte)) := do
  let (d, r) ← if c.binSearch then binPageSearch c d key else splineSearch c d key
  if r then
    match ← searchNode c d.rbuf key with
    | some i => .ok (d, 0, some (slotData c d.rbuf i))
    | none => .ok (d, -1, none)
  else .ok (d, -1, none)

/-- embedDB.c:1469-1527 `embedDBGet`: return code and the data copied to the caller's buffer. -/
def get (c : Cfg) (d : Data) (key : Nat) : Res (Data × Int × Option (List Byte)) :=
  if d.next = 0 then do
    let (r, out) ← searchBuffer c d.wbuf key
    .ok (d, if r ≠ -1 then 0 else -1, out)
  else if pageCount d.wbuf ≠ 0 then
    if key > pageMaxKey c d.wbuf then .ok (d, -1, none)
    else if key ≥ pageMinKey c d.wbuf then do
      let (r, out) ← searchBuffer c d.wbuf key
      .ok (d, if r ≠ -1 then 0 else -1, out)
    else getStored c d key
  else getStored c d key

end EDB
