import Verif.Model.Recover
import Verif.Spec.Float

/-!
# Model of the floating point estimates

`embedDBCalculateSlope`, `embedDBEstimateKeyLocation`, `getMaxError` and the operations that use them.  Everywhere else
the estimate is an arbitrary parameter (`Cfg.est`) and `getMaxError`, whose result only reaches the statistics, is left
out.  Here they are computed, and a conversion to an integer type that cannot hold the value is undefined behaviour
(C17 6.3.1.4).

Every arithmetic operation on `float` is the exact operation followed by the rounding `r`.
-/

namespace EDB

open Spec (Rnd)

/-- Range of the unsigned type the keys are copied to in `embedDBCalculateSlope` and `getMaxError`
(embedDB.c:886, 900, 924, 955). -/
def keyMod (c : Cfg) : Nat := if c.keySize ≤ 4 then 2 ^ 32 else 2 ^ 64

/-- Unsigned subtraction modulo `m`. -/
def subMod (m a b : Nat) : Nat := (a + m - b % m) % m

/-- embedDB.c:878-914 `embedDBCalculateSlope`. -/
def slopeOf (r : Rnd 24) (c : Cfg) (p : Page) : ℚ :=
  let x2 := if pageCount p = 0 then 0 else pageCount p - 1
  if x2 = 0 then 1
  else r.f (r.f (subMod (keyMod c) (slotKey c p x2) (slotKey c p 0)) / r.f x2)

/-- Conversion of a nonnegative `float` to a signed integer type whose largest value is `b - 1`. -/
def toSigned (b : Nat) (v : ℚ) : Res Int := if v < b then .ok ⌊v⌋ else .ub

/-- embedDB.c:1279-1289 `embedDBEstimateKeyLocation`.  A division by zero gives infinity, which cannot be converted. -/
def estimateLoc (r : Rnd 24) (c : Cfg) (p : Page) (key : Nat) : Res Int :=
  let s := slopeOf r c p
  if s = 0 then .ub else toSigned (2 ^ 15) (r.f (r.f (subMod (2 ^ 64) key (pageMinKey c p)) / s))

/-- embedDB.c:1298-1335 `embedDBSearchNode` (`range = 0`), with the computed estimate. -/
def searchNodeF (r : Rnd 24) (c : Cfg) (p : Page) (key : Nat) : Res (Option Nat) := do
  let e ← estimateLoc r c p key
  let count := pageCount p
  let last : Int := (count : Int) - 1
  let middle := if e ≥ count ∨ e ≤ 0 then last.tdiv 2 else e
  let middle := if middle > last then last else middle
  nodeLoop c p key (count + 1) 0 last middle

/-- embedDB.c:1443-1458 `searchBuffer`, `sn` being `embedDBSearchNode`. -/
def searchBufferW (sn : Page → Nat → Res (Option Nat)) (c : Cfg) (p : Page) (key : Nat) : Res (Int × Option (List Byte)) :=
  if pageCount p = 0 then .ok (-1, none)
  else do
    match ← sn p key with
    | some i => .ok (toInt8 i, some (slotData c p i))
    | none => .ok (-1, none)

/-- embedDB.c:1502-1526: the part of `embedDBGet` that looks in the stored pages. -/
def getStoredW (sn : Page → Nat → Res (Option Nat)) (c : Cfg) (d : Data) (key : Nat) : Res (Data × Int × Option (List Byte)) := do
  let (d, b) ← if c.binSearch then binPageSearch c d key else splineSearch c d key
  if b then
    match ← sn d.rbuf key with
    | some i => .ok (d, 0, some (slotData c d.rbuf i))
    | none => .ok (d, -1, none)
  else .ok (d, -1, none)

/-- embedDB.c:1469-1527 `embedDBGet`, `sn` being `embedDBSearchNode`. -/
def getW (sn : Page → Nat → Res (Option Nat)) (c : Cfg) (d : Data) (key : Nat) : Res (Data × Int × Option (List Byte)) :=
  if d.next = 0 then do
    let (n, out) ← searchBufferW sn c d.wbuf key
    .ok (d, if n ≠ -1 then 0 else -1, out)
  else if pageCount d.wbuf ≠ 0 then
    if key > pageMaxKey c d.wbuf then .ok (d, -1, none)
    else if key ≥ pageMinKey c d.wbuf then do
      let (n, out) ← searchBufferW sn c d.wbuf key
      .ok (d, if n ≠ -1 then 0 else -1, out)
    else getStoredW sn c d key
  else getStoredW sn c d key

/-- embedDB.c:1469-1527 `embedDBGet` with the computed estimates. -/
def getF (r : Rnd 24) (c : Cfg) (d : Data) (key : Nat) : Res (Data × Int × Option (List Byte)) := getW (searchNodeF r c) c d key

/-- embedDB.c:931-946 and 962-977: the loop of `getMaxError` from slot `i` on (`n` slots are left). -/
def maxErrLoop (r : Rnd 24) (c : Cfg) (p : Page) (s : ℚ) : Nat → Nat → Int → Res Int
  | 0, _, m => .ok m
  | n + 1, i, m =>
    if s = 0 then .ub
    else
      let v := r.f (r.f (subMod (keyMod c) (slotKey c p i) (pageMinKey c p)) / s)
      do
        let e ← toSigned (2 ^ 31) (if v ≥ r.f i then r.f (v - r.f i) else r.f (r.f i - v))
        maxErrLoop r c p s n (i + 1) (if e > m then e else m)

/-- embedDB.c:921-985 `getMaxError`; `w` is the write buffer, whose slope is used for keys of more than 4 bytes. -/
def getMaxErr (r : Rnd 24) (c : Cfg) (p w : Page) : Res Int := do
  let m ← maxErrLoop r c p (slopeOf r c (if c.keySize ≤ 4 then p else w)) c.maxRec 0 0
  .ok (if m > c.maxRec then c.maxRec else m)

/-- embedDB.c:357-369: `follow` with the calls of `updateMaxiumError`, which calls `me` (`getMaxError`) with the page read and the
write buffer. -/
def followF (me : Page → Page → Res Int) (c : Cfg) : Nat → Data → Nat → Nat → Bool → Res (Data × Nat × Nat × Bool)
  | 0, d, pos, last, more => .ok (d, pos, last, more)
  | n + 1, d, pos, last, more =>
    if more ∧ pos < c.N then
      if pageId d.rbuf % c.N = pos ∧ pageId d.rbuf = (last + 1) % 2 ^ 32 then do
        let _ ← me d.rbuf d.wbuf
        let q := readPage d (pos + 1)
        followF me c n q.1 (pos + 1) (pageId d.rbuf) q.2
      else .ok (d, pos, last, more)
    else .ok (d, pos, last, more)

/-- embedDB.c:334-351: `probe` with the call of `updateMaxiumError`. -/
def probeF (me : Page → Page → Res Int) (c : Cfg) : Nat → Data → Nat → Bool → Res Found
  | 0, d, pos, more => .ok ⟨d, pos, none, more⟩
  | n + 1, d, pos, more =>
    if more then
      if looksValid c d.rbuf pos then do
        let _ ← me d.rbuf d.wbuf
        let q := readPage d (pos + 1)
        .ok ⟨q.1, pos + 1, some (pageId d.rbuf), q.2⟩
      else
        let q := readPage d (pos + c.B)
        probeF me c n q.1 (pos + c.B) q.2
    else .ok ⟨d, pos, none, more⟩

/-- embedDB.c:318-414 `embedDBInitDataFromFile` with the calls of `updateMaxiumError`. -/
def recoverWith (me : Page → Page → Res Int) (c : Cfg) (d : Data) : Res (Data × Int) := do
  let q := readPage d 0
  let f ← probeF me c 2 q.1 0 q.2
  match f.last with
  | none => .ok (f.d, 0)
  | some last =>
    let (d, pos, last, more) ← followF me c c.N f.d f.pos last f.more
    .ok (finishRecover c d pos last more)

/-- embedDB.c:318-414 `embedDBInitDataFromFile`. -/
def recoverPlainF (r : Rnd 24) (c : Cfg) (d : Data) : Res (Data × Int) := recoverWith (getMaxErr r c) c d

/-! ### The interpolation of the spline in `long double`

`Spline.interp` takes the exact floor.  Here the product and the difference of the keys are converted to `long double`, whose
precision depends on the target: 64 significant bits on x86, 53 (`double`) on ARM, 24 (`float`) on AVR. -/

/-- spline.c:360-384: interpolation between points `i-1` and `i` with the rounding `q`.  The conversion to `uint32_t` is undefined for
a value it cannot hold. -/
def Spline.interpQ {b : Nat} (q : Rnd b) (s : Spline) (key i : Nat) : Res Spline.Found :=
  let down := s.pt (i - 1)
  let up := s.pt i
  if up.1 = down.1 then .ub
  else
    let v := q.f (q.f (u64 (((key : Int) - down.1) * ((up.2 : Int) - down.2))) / q.f (up.1 - down.1 : Nat))
    if v < 2 ^ 32 then
      let loc := ⌊v⌋.toNat + down.2
      let last := (s.pt (s.count - 1)).2
      .ok { loc := loc
            low := if s.maxErr > loc then 0 else loc - s.maxErr
            high := if loc + s.maxErr > last then last else loc + s.maxErr }
    else .ub

/-- spline.c:330-384 `splineFind`. -/
def Spline.findQ {b : Nat} (q : Rnd b) (s : Spline) (cmp : Nat → Nat → Int) (key : Nat) : Res Spline.Found :=
  if cmp key (s.pt 0).1 < 0 ∨ s.count ≤ 1 then
    let lo := s.first.2
    let hi := (s.pt 0).2
    .ok { loc := (lo + hi) / 2, low := lo, high := hi }
  else if cmp key (s.pt (s.count - 1)).1 > 0 then
    let p := (s.pt (s.count - 1)).2
    .ok { loc := p, low := p, high := p }
  else do
    let i ← s.search cmp key (s.count + 1) 0 ((s.count : Int) - 1)
    s.interpQ q key i

/-- embedDB.c:1410-1430: `splineSearch` after the call of `splineFind`. -/
def searchFrom (c : Cfg) (d : Data) (key : Nat) (r : Spline.Found) : Res (Data × Bool) :=
  if r.high < d.min then .ok (d, false)
  else
    let low := if r.low < d.min then d.min else r.low
    let loc := if r.low < d.min then (d.min + r.high) / 2 else r.loc
    let cached := match d.buffered with
      | none => false
      | some b => decide (low ≤ b ∧ r.high ≥ b ∧
          c.cmpKey (pageMinKey c d.rbuf) key ≤ 0 ∧ c.cmpKey (pageMaxKey c d.rbuf) key ≥ 0)
    if cached then .ok (d, true)
    else linSearch c key (r.high - low + 2) d loc low r.high

/-- embedDB.c:1405-1431 `splineSearch`. -/
def splineSearchQ {b : Nat} (q : Rnd b) (c : Cfg) (d : Data) (key : Nat) : Res (Data × Bool) := do
  let r ← d.spl.findQ q c.cmpKey key
  searchFrom c d key r

/-- embedDB.c:1502-1526: the part of `embedDBGet` that looks in the stored pages. -/
def getStoredQ {b : Nat} (r : Rnd 24) (q : Rnd b) (c : Cfg) (d : Data) (key : Nat) : Res (Data × Int × Option (List Byte)) := do
  let (d, b) ← if c.binSearch then binPageSearch c d key else splineSearchQ q c d key
  if b then
    match ← searchNodeF r c d.rbuf key with
    | some i => .ok (d, 0, some (slotData c d.rbuf i))
    | none => .ok (d, -1, none)
  else .ok (d, -1, none)

/-- embedDB.c:1469-1527 `embedDBGet` with all floating point operations rounded: `r` is the rounding of `float`, `q` that of
`long double`. -/
def getQ {b : Nat} (r : Rnd 24) (q : Rnd b) (c : Cfg) (d : Data) (key : Nat) : Res (Data × Int × Option (List Byte)) :=
  if d.next = 0 then do
    let (n, out) ← searchBufferW (searchNodeF r c) c d.wbuf key
    .ok (d, if n ≠ -1 then 0 else -1, out)
  else if pageCount d.wbuf ≠ 0 then
    if key > pageMaxKey c d.wbuf then .ok (d, -1, none)
    else if key ≥ pageMinKey c d.wbuf then do
      let (n, out) ← searchBufferW (searchNodeF r c) c d.wbuf key
      .ok (d, if n ≠ -1 then 0 else -1, out)
    else getStoredQ r q c d key
  else getStoredQ r q c d key

end EDB
