import Verif.Model.Data

/-! # Statistics of an open table

The five counters of `embedDBState` (embedDB.h:242-246) and the three tags of the read buffers
(embedDB.h:247-249), under the functions that touch storage.  What those functions do to pages is modelled in
`Model/Data`, `Model/Index` and `Model/Var`; here only whether the device is called, whether the call succeeds, and
what is counted.  The counters are `id_t` = `uint32_t` (embedDB.h), so they wrap at `2 ^ 32`.

Simplifications: the answer of the device is part of the access (`ok`), so that a run is a list of accesses with any
answers; erasures are not counted by the code and not modelled here; `getPages…` and the counters of the query
interface are not modelled. -/

namespace EDB

/-- embedDB.h:242-246: the counters. -/
structure Counters where
  numWrites : Nat
  numReads : Nat
  numIdxWrites : Nat
  numIdxReads : Nat
  bufferHits : Nat
deriving DecidableEq, Repr

/-- The counters and the tags of the read buffers, embedDB.h:242-249.  A tag is `none` when it is the `(id_t)-1` of
embedDB.c:193-195; pages are never numbered `2 ^ 32 - 1`. -/
structure StatState where
  cnt : Counters
  bufData : Option Nat
  bufIdx : Option Nat
  bufVar : Option Nat
deriving DecidableEq, Repr

/-- The files of a table. -/
inductive StFile where
  | data | idx | var
deriving DecidableEq, Repr

/-- A call of a function of embedDB.c that touches storage; `ok` is what the device would answer. -/
inductive Access where
  /-- `readPage`, `readIndexPage`, `readVariablePage` of the physical page `p` -/
  | read (f : StFile) (p : Nat) (ok : Bool)
  /-- `writePage`, `writeIndexPage`, `writeVariablePage`: the `fileInterface->write` of the page -/
  | write (f : StFile) (ok : Bool)
  /-- `writeTemporaryPage`, embedDB.c:2085 -/
  | temp (ok : Bool)
  /-- `embedDBResetStats` -/
  | reset
deriving DecidableEq, Repr

/-- One call of the device: a read or a write of a page of a file, and its answer. -/
inductive DevCall where
  | read (f : StFile) (p : Nat) (ok : Bool)
  | write (f : StFile) (ok : Bool)
deriving DecidableEq, Repr

/-- `x++` of a `uint32_t`. -/
def inc32 (x : Nat) : Nat := (x + 1) % 2 ^ 32

namespace StatState

/-- The tag of the read buffer of a file. -/
def tag (s : StatState) : StFile → Option Nat
  | .data => s.bufData
  | .idx => s.bufIdx
  | .var => s.bufVar

/-- embedDB.c:2269, 2294, 2321: `bufferedPageId = pageNum` and its siblings. -/
def setTag (s : StatState) (f : StFile) (p : Nat) : StatState :=
  match f with
  | .data => { s with bufData := some p }
  | .idx => { s with bufIdx := some p }
  | .var => { s with bufVar := some p }

/-- embedDB.c:2268, 2293, 2320. -/
def countRead (s : StatState) (f : StFile) : StatState :=
  match f with
  | .data => { s with cnt := { s.cnt with numReads := inc32 s.cnt.numReads } }
  | .idx => { s with cnt := { s.cnt with numIdxReads := inc32 s.cnt.numIdxReads } }
  | .var => { s with cnt := { s.cnt with numReads := inc32 s.cnt.numReads } }

/-- embedDB.c:2036, 2161, 2217. -/
def countWrite (s : StatState) (f : StFile) : StatState :=
  match f with
  | .data => { s with cnt := { s.cnt with numWrites := inc32 s.cnt.numWrites } }
  | .idx => { s with cnt := { s.cnt with numIdxWrites := inc32 s.cnt.numIdxWrites } }
  | .var => { s with cnt := { s.cnt with numWrites := inc32 s.cnt.numWrites } }

/-- embedDB.c:2329-2335 `embedDBResetStats`. -/
def resetStats (s : StatState) : StatState :=
  { s with cnt := { numReads := 0, numWrites := 0, bufferHits := 0, numIdxReads := 0, numIdxWrites := 0 } }

/-- One access: the state after it, the calls of the device it makes and whether it returns success.
embedDB.c:2254-2271 `readPage`, 2279-2296 `readIndexPage`, 2304-2323 `readVariablePage`; 2027-2038, 2150-2163,
2208-2219 the ends of the three functions that write a page; 2085-2093 the end of `writeTemporaryPage`, which counts
nothing. -/
def access (s : StatState) : Access → StatState × List DevCall × Bool
  | .read f p ok =>
    if s.tag f = some p then
      ({ s with cnt := { s.cnt with bufferHits := inc32 s.cnt.bufferHits } }, [], true)
    else if ok then ((s.countRead f).setTag f p, [.read f p true], true)
    else (s, [.read f p false], false)
  | .write f ok => if ok then (s.countWrite f, [.write f true], true) else (s, [.write f false], false)
  | .temp ok => (s, [.write .data ok], ok)
  | .reset => (s.resetStats, [], true)

/-- A list of accesses: the state and all the calls of the device, in order. -/
def accesses (s : StatState) : List Access → StatState × List DevCall
  | [] => (s, [])
  | a :: as =>
    let r := s.access a
    let rs := accesses r.1 as
    (rs.1, r.2.1 ++ rs.2)

end StatState

/-- embedDB.c:191-271 `embedDBInit`, the statistics: the tags are cleared, the accesses `init` of the three
`embedDBInit…` functions run (recovery reads pages), and the counters are reset, but a table with variable data has
returned before that (embedDB.c:262).  `junk` is what the memory of the state holds. -/
def initStats (vdata : Bool) (junk : Counters) (init : List Access) : StatState :=
  let s := (StatState.accesses { cnt := junk, bufData := none, bufIdx := none, bufVar := none } init).1
  if vdata then s else s.resetStats

end EDB
