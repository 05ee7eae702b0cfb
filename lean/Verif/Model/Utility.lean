import Verif.Model.Bytes

/-!
# Model of `lib/EmbedDB-Utility/embedDBUtility.c`

Supplied key comparators and bitmap functions.  Multi-byte integers in memory are little-endian.
A bitmap is the unsigned integer stored in its 1, 2 or 8 bytes.
-/

namespace EDB

/-- The value of a C signed integer of `|bs|` bytes (two's complement, little-endian). -/
def leInt (bs : List Byte) : Int :=
  if 2 * leNat bs < 256 ^ bs.length then (leNat bs : Int) else (leNat bs : Int) - 256 ^ bs.length

/-! ## Comparators -/

/-- Does a value fit a two's complement integer of `w` bits? -/
def fits (w : Nat) (z : Int) : Bool := decide (-(2 ^ (w - 1) : Int) ≤ z) && decide (z < 2 ^ (w - 1))

/-- embedDBUtility.c:235-245 `int32Comparator` (`w = 32`) and 247-254 `int64Comparator` (`w = 64`): signed
subtraction, which is undefined behaviour when the difference does not fit, then the sign of the result. -/
def subCmp (w : Nat) (a b : Int) : Res Int :=
  if fits w (a - b) then
    let result := a - b
    if result < 0 then .ok (-1) else if result > 0 then .ok 1 else .ok 0
  else .ub

/-- embedDBUtility.c:235-245 `int32Comparator` on the bytes of the two keys. -/
def int32Comparator (a b : List Byte) : Res Int := subCmp 32 (leInt (a.take 4)) (leInt (b.take 4))

/-- embedDBUtility.c:247-254 `int64Comparator` on the bytes of the two keys. -/
def int64Comparator (a b : List Byte) : Res Int := subCmp 64 (leInt (a.take 8)) (leInt (b.take 8))

/-! ## 8 buckets -/

/-- embedDBUtility.c:44-65 `updateBitmapInt8`; `val` is the `int16_t` at the start of the data. -/
def updateBitmapInt8 (val : Int) (bm : BitVec 8) : BitVec 8 :=
  if val < 10 then bm ||| 128#8
  else if val < 20 then bm ||| 64#8
  else if val < 30 then bm ||| 32#8
  else if val < 40 then bm ||| 16#8
  else if val < 50 then bm ||| 8#8
  else if val < 60 then bm ||| 4#8
  else if val < 100 then bm ||| 2#8
  else bm ||| 1#8

/-- embedDBUtility.c:68-93 `buildBitmapInt8FromRange` (NULL = `none`). -/
def buildBitmapInt8FromRange (min max : Option Int) : BitVec 8 :=
  match min, max with
  | none, none => 255#8
  | some lo, none =>
    let minMap := updateBitmapInt8 lo 0#8
    minMap ||| (minMap - 1#8)
  | none, some hi =>
    let maxMap := updateBitmapInt8 hi 0#8
    ~~~(maxMap - 1#8)
  | some lo, some hi =>
    let minMap := updateBitmapInt8 lo 0#8
    let minMap := minMap ||| (minMap - 1#8)
    let maxMap := updateBitmapInt8 hi 0#8
    let maxMap := ~~~(maxMap - 1#8)
    minMap &&& maxMap

/-- C conversion of an unsigned value to the `int8_t` returned by the `inBitmap` functions. -/
def retInt8 (n : Nat) : Int := if n % 256 < 128 then (n % 256 : Int) else (n % 256 : Int) - 256

/-- embedDBUtility.c:95-103 `inBitmapInt8`. -/
def inBitmapInt8 (val : Int) (bm : BitVec 8) : Int := retInt8 (updateBitmapInt8 val 0#8 &&& bm).toNat

/-! ## 16 buckets -/

/-- embedDBUtility.c:116-119: the loop of `updateBitmapInt16`; `current` is an `int32_t`, so exceeding 2^31-1 is
undefined behaviour. -/
def loop16 (val : Int) : Nat → Int → BitVec 16 → Res (BitVec 16)
  | 0, _, _ => .fuel
  | f + 1, current, num =>
    if val > current then
      if current + 30 > 2 ^ 31 - 1 then .ub
      else loop16 val f (current + 30) (num / 2#16)
    else .ok num

/-- embedDBUtility.c:106-123 `updateBitmapInt16`; `val` is the `int32_t` at the start of the data. -/
def updateBitmapInt16 (val : Int) (bm : BitVec 16) : Res (BitVec 16) := do
  let num ← loop16 val (((val - 320) / 30).toNat + 2) 320 32768#16
  let num := if num = 0#16 then 1#16 else num
  .ok (bm ||| num)

/-- embedDBUtility.c:142-168 `buildBitmapInt16FromRange`. -/
def buildBitmapInt16FromRange (min max : Option Int) : Res (BitVec 16) :=
  match min, max with
  | none, none => .ok 65535#16
  | some lo, none => do
    let minMap ← updateBitmapInt16 lo 0#16
    .ok (minMap ||| (minMap - 1#16))
  | none, some hi => do
    let maxMap ← updateBitmapInt16 hi 0#16
    .ok (~~~(maxMap - 1#16))
  | some lo, some hi => do
    let minMap ← updateBitmapInt16 lo 0#16
    let minMap := minMap ||| (minMap - 1#16)
    let maxMap ← updateBitmapInt16 hi 0#16
    let maxMap := ~~~(maxMap - 1#16)
    .ok (minMap &&& maxMap)

/-- embedDBUtility.c:125-133 `inBitmapInt16`: the `uint16_t` overlap is returned as an `int8_t`. -/
def inBitmapInt16 (val : Int) (bm : BitVec 16) : Res Int := do
  let t ← updateBitmapInt16 val 0#16
  .ok (retInt8 (t &&& bm).toNat)

/-! ## 64 buckets -/

/-- embedDBUtility.c:179-182: the loop of `updateBitmapInt64` (at most 63 iterations, structural on what is left
to `bmsize`); result: `count`. -/
def loop64 (val : Int) : Nat → Int → Nat → Nat
  | 0, _, count => count
  | f + 1, current, count => if val > current then loop64 val f (current + 10) (count + 1) else count

/-- embedDBUtility.c:183-187: byte `count / 8` gets bit `128 >> (count & 7)`; in the little-endian `uint64_t`
that is bit `8 * (count / 8) + (7 - count % 8)`. -/
def bitPos64 (count : Nat) : Nat := 8 * (count / 8) + (7 - count % 8)

/-- embedDBUtility.c:171-188 `updateBitmapInt64`. -/
def updateBitmapInt64 (val : Int) (bm : BitVec 64) : BitVec 64 :=
  bm ||| (1#64 <<< bitPos64 (loop64 val 63 320 0))

/-- embedDBUtility.c:207-233 `buildBitmapInt64FromRange`. -/
def buildBitmapInt64FromRange (min max : Option Int) : BitVec 64 :=
  match min, max with
  | none, none => BitVec.allOnes 64
  | some lo, none =>
    let minMap := updateBitmapInt64 lo 0#64
    minMap ||| (minMap - 1#64)
  | none, some hi =>
    let maxMap := updateBitmapInt64 hi 0#64
    ~~~(maxMap - 1#64)
  | some lo, some hi =>
    let minMap := updateBitmapInt64 lo 0#64
    let minMap := minMap ||| (minMap - 1#64)
    let maxMap := updateBitmapInt64 hi 0#64
    let maxMap := ~~~(maxMap - 1#64)
    minMap &&& maxMap

/-- embedDBUtility.c:190-198 `inBitmapInt64`: the `uint64_t` overlap is returned as an `int8_t`. -/
def inBitmapInt64 (val : Int) (bm : BitVec 64) : Int := retInt8 (updateBitmapInt64 val 0#64 &&& bm).toNat

end EDB
