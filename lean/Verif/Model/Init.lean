import Verif.Model.Iter

/-!
# Model of the checks and size computations of `embedDBInit` (embedDB.c:139-272)

`keySize`, `dataSize`, `bitmapSize`, `recordSize` and `headerSize` are `int8_t` (embedDB.h:229-235); sums are computed as
`int` and converted back to `int8_t` on assignment (on every supported compiler: modulo 256).  `pageSize` and
`maxRecordsPerPage` are `uint16_t`.
-/

namespace EDB

/-- Conversion of an `int` to `int8_t`. -/
def int8 (x : Int) : Int := (x + 128) % 256 - 128

/-- embedDB.c:162-171 `state->recordSize` as stored. -/
def cRecSize (c : Cfg) : Int :=
  let r := int8 (c.keySize + c.dataSize)
  if c.useVdata then int8 (r + 4) else r

/-- embedDB.c:178-190 `state->headerSize` as stored. -/
def cHdr (c : Cfg) : Int :=
  let h : Int := 6
  let h := if c.useIndex then int8 (h + c.bitmapSize) else h
  if c.useMaxMin then int8 (h + (c.keySize * 2 + c.dataSize * 2)) else h

/-- embedDB.c:198 `state->maxRecordsPerPage` as stored; dividing by zero is undefined behaviour. -/
def cMaxRec (c : Cfg) : Res Nat :=
  if cRecSize c = 0 then .ub
  else .ok (((c.pageSize - cHdr c).tdiv (cRecSize c)) % 65536).toNat

/-- The values the fields of `embedDBState` can have at all: the sizes are non-negative `int8_t`s, the page size and the
erase size `uint16_t`s, the page counts `uint32_t`s. -/
structure Cfg.Typed (c : Cfg) : Prop where
  key : c.keySize ≤ 127
  data : c.dataSize ≤ 127
  bm : c.bitmapSize ≤ 127
  page : c.pageSize < 65536
  erase : c.B < 65536
  pages : c.N < 2 ^ 32
  idx : c.numIdx < 2 ^ 32
  var : c.numVar < 2 ^ 32

/-- embedDB.c:139-272, 599-654, 696-722 with EMBEDDB_RESET_DATA: does `embedDBInit` return 0?  `buf` is
`bufferSizeInBlocks`; the files are given and can be opened.  A zero erase or record or bitmap size divides by zero.
(Integer promotion: `2 * eraseSizeInPages` is an `int`, so nothing overflows here.) -/
def initAccepts (c : Cfg) (buf : Nat) : Res Bool :=
  if c.keySize > 8 then .ok false
  else if c.B = 0 then .ub
  else if c.N % c.B ≠ 0 then .ok false
  else if c.N < (if c.rlc then 4 else 2) * c.B then .ok false
  else if c.useVdata = true ∧ c.numVar % c.B ≠ 0 then .ok false
  else if c.useIndex = true ∧ c.numIdx % c.B ≠ 0 then .ok false
  else if cRecSize c = 0 then .ub
  else if c.N < ((if c.useIndex then 1 else 0) * 2 + 2) * c.B then .ok false
  else if c.binSearch = false ∧ c.splSize < 4 then .ok false
  else if c.useIndex = true ∧ buf < 4 then .ok false
  else if c.useIndex = true ∧ c.bitmapSize = 0 then .ub
  else if c.useIndex = true ∧ c.numIdx < c.B * 2 then .ok false
  else if c.useVdata = true ∧ buf < 4 + (if c.useIndex then 2 else 0) then .ok false
  else .ok true

end EDB
