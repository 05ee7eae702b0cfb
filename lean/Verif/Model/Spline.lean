import Verif.Model.Bytes

/-!
# Model of `src/spline/spline.c` and `cleanSpline`

Keys are the unsigned values of their `keySize` bytes (`memcpy` into a zeroed `uint64_t`), pages are the
`uint32_t` page numbers; both are unbounded naturals here.  The products in `splineIsLeft/Right` are computed
modulo 2^64 exactly as in C (`int64_t * uint64_t` is `uint64_t` arithmetic).
The argument of the lower-limit update is a `uint32_t` difference and wraps modulo 2^32 as in C.
-/

namespace EDB

/-- spline.h:49-64 `struct spline_s`.  `pts` is the ring buffer memory (`malloc`ed, so arbitrary at first). -/
structure Spline where
  /-- number of points currently stored -/
  count : Nat
  /-- capacity of the ring -/
  size : Nat
  /-- physical index of logical point 0 -/
  start : Nat
  /-- ring memory: physical slot ↦ (key, page) -/
  pts : Nat → Nat × Nat
  /-- is the last stored point temporary? -/
  temp : Bool
  /-- last key added -/
  lastKey : Nat
  /-- page of the last key added -/
  lastLoc : Nat
  /-- lower corridor limit (key, page) -/
  lower : Nat × Nat
  /-- upper corridor limit (key, page) -/
  upper : Nat × Nat
  /-- first point ever added -/
  first : Nat × Nat
  /-- number of `splineAdd` calls -/
  numAdd : Nat
  /-- error bound -/
  maxErr : Nat

namespace Spline

/-- spline.c:54-69 `splineInit`.  `mem` is the uninitialised contents of the `malloc`ed point array;
the other `malloc`ed cells are written before they are read, so they are given the value 0. -/
def init (size maxErr : Nat) (mem : Nat → Nat × Nat) : Spline where
  count := 0
  size := size
  start := 0
  pts := mem
  temp := false
  lastKey := 0
  lastLoc := 0
  lower := (0, 0)
  upper := (0, 0)
  first := (0, 0)
  numAdd := 0
  maxErr := maxErr

/-- spline.c:403-405 `splinePointLocation`, read access. -/
def pt (s : Spline) (i : Nat) : Nat × Nat := s.pts ((i + s.start) % s.size)

/-- spline.c:403-405 `splinePointLocation`, write access. -/
def setPt (s : Spline) (i : Nat) (v : Nat × Nat) : Spline :=
  { s with pts := fun j => if j = (i + s.start) % s.size then v else s.pts j }

/-- The value of a C `int64_t`/`uint64_t` product: an integer modulo 2^64. -/
def u64 (z : Int) : Nat := (z % (2 ^ 64 : Int)).toNat

/-- The value of a C `uint32_t` difference. -/
def u32 (z : Int) : Nat := (z % (2 ^ 32 : Int)).toNat

/-- spline.c:74-76 `splineIsLeft`. -/
def isLeft (x1 : Nat) (y1 : Int) (x2 : Nat) (y2 : Int) : Bool :=
  decide (u64 (y1 * x2) > u64 (y2 * x1))

/-- spline.c:81-83 `splineIsRight`. -/
def isRight (x1 : Nat) (y1 : Int) (x2 : Nat) (y2 : Int) : Bool :=
  decide (u64 (y1 * x2) < u64 (y2 * x1))

/-- spline.c:218-230 `splineErase`. -/
def erase (s : Spline) (n : Nat) : Spline :=
  if n > s.count ∨ s.count - n = 1 then s
  else if n = 0 then s
  else { s with
    count := s.count - n
    start := (s.start + n) % s.size
    numAdd := if s.count - n = 0 then 0 else s.numAdd }

/-- `page < maxError ? 0 : page - maxError` (spline.c:111, 170, 192, 194). -/
def lowPage (e page : Nat) : Nat := if page < e then 0 else page - e

/-- spline.c:162-179: the point is outside the corridor, so the previous point becomes a spline point and the
corridor restarts at the new point; erase again if the ring is full. -/
def addOutside (s : Spline) (key page : Nat) : Spline :=
  let s := s.setPt s.count (s.lastKey, s.lastLoc)
  let s := { s with
    count := s.count + 1
    temp := false
    lower := (key, lowPage s.maxErr page)
    upper := (key, page + s.maxErr) }
  if s.count ≥ s.size then s.erase 1 else s

/-- spline.c:182-196: the point is inside the corridor; tighten the limits.
`lastPt` is the last permanent point, `up`/`lo` the corridor limits read at the start of the call. -/
def addInside (s : Spline) (key page : Nat) (lastPt up lo : Nat × Nat) : Spline :=
  let xdiff := key - lastPt.1
  let upperX := up.1 - lastPt.1
  let upperY : Int := (up.2 : Int) - lastPt.2
  let lowerX := lo.1 - lastPt.1
  let lowerY : Int := (lo.2 : Int) - lastPt.2
  let s := if isLeft upperX upperY xdiff ((page : Int) + s.maxErr - lastPt.2) then
      { s with upper := (key, page + s.maxErr) } else s
  if isRight lowerX lowerY xdiff (u32 ((lowPage s.maxErr page : Int) - lastPt.2)) then
      { s with lower := (key, lowPage s.maxErr page) } else s

/-- spline.c:199-209: remember the point and store it as the temporary last spline point. -/
def addTemp (s : Spline) (key page : Nat) : Spline :=
  let s := { s with lastLoc := page, lastKey := key }
  let s := s.setPt s.count (key, page)
  { s with count := s.count + 1, temp := true }

/-- spline.c:128-209: the part of `splineAdd` after the duplicate check. -/
def addMain (s : Spline) (key page : Nat) : Spline :=
  let s := if s.temp then { s with count := s.count - 1 } else s
  let lastPt := s.pt (s.count - 1)
  let up := s.upper
  let lo := s.lower
  let xdiff := key - lastPt.1
  let ydiff : Int := (page : Int) - lastPt.2
  let upperX := up.1 - lastPt.1
  let upperY : Int := (up.2 : Int) - lastPt.2
  let lowerX := lo.1 - lastPt.1
  let lowerY : Int := (lo.2 : Int) - lastPt.2
  let s := if s.count ≥ s.size then s.erase 1 else s
  let s := if isLeft xdiff ydiff upperX upperY || isRight xdiff ydiff lowerX lowerY then
      s.addOutside key page
    else s.addInside key page lastPt up lo
  s.addTemp key page

/-- spline.c:91-210 `splineAdd`. -/
def add (s : Spline) (key page : Nat) : Spline :=
  let s := { s with numAdd := s.numAdd + 1 }
  if s.numAdd = 1 then
    let s := s.setPt 0 (key, page)
    { s with first := (key, page), count := s.count + 1, lastKey := key }
  else
    let s := if s.numAdd = 2 then
        { s with
          lower := (key, lowPage s.maxErr page)
          upper := (key, page + s.maxErr)
          lastKey := key
          lastLoc := page }
      else s
    if key ≤ s.lastKey ∧ s.numAdd ≠ 2 then s
    else s.addMain key page

/-- spline.c:291-319 `pointsBinarySearch` (recursion made explicit with a bound; `low`/`high` are C ints). -/
def search (s : Spline) (cmp : Nat → Nat → Int) (key : Nat) : Nat → Int → Int → Res Nat
  | 0, _, _ => .fuel
  | f + 1, low, high =>
    if high ≥ low then
      let mid := low + (high - low).tdiv 2
      if mid = 0 then .ok 1
      else
        let p := (s.pt mid.toNat).1
        let q := (s.pt (mid - 1).toNat).1
        if cmp p key ≥ 0 ∧ cmp q key ≤ 0 then .ok mid.toNat
        else if cmp p key > 0 then search s cmp key f low (mid - 1)
        else search s cmp key f (mid + 1) high
    else
      let mid := low + (high - low).tdiv 2
      if mid ≥ high then .ok high.toNat else .ok low.toNat

/-- Result of `splineFind`: estimated page, lowest and highest page the key can be on. -/
structure Found where
  loc : Nat
  low : Nat
  high : Nat
  deriving DecidableEq

/-- spline.c:360-384: interpolation between points `i-1` and `i`.
The `long double` quotient is modelled as the exact floor (see DESIGN.md); the product is `uint64_t`.
Equal keys at both ends give 0/0 = NaN whose conversion to an integer is undefined behaviour. -/
def interp (s : Spline) (key i : Nat) : Res Found :=
  let down := s.pt (i - 1)
  let up := s.pt i
  if up.1 = down.1 then .ub
  else
    let loc := u64 (((key : Int) - down.1) * ((up.2 : Int) - down.2)) / (up.1 - down.1) + down.2
    let last := (s.pt (s.count - 1)).2
    .ok { loc := loc
          low := if s.maxErr > loc then 0 else loc - s.maxErr
          high := if loc + s.maxErr > last then last else loc + s.maxErr }

/-- spline.c:330-384 `splineFind`. -/
def find (s : Spline) (cmp : Nat → Nat → Int) (key : Nat) : Res Found :=
  if cmp key (s.pt 0).1 < 0 ∨ s.count ≤ 1 then
    let lo := s.first.2
    let hi := (s.pt 0).2
    .ok { loc := (lo + hi) / 2, low := lo, high := hi }
  else if cmp key (s.pt (s.count - 1)).1 > 0 then
    let p := (s.pt (s.count - 1)).2
    .ok { loc := p, low := p, high := p }
  else do
    let i ← s.search cmp key (s.count + 1) 0 ((s.count : Int) - 1)
    s.interp key i

/-- embedDB.c:2104-2112: the counting loop of `cleanSpline` (`i` runs while `i < count`). -/
def cleanCount (s : Spline) (minPage : Nat) : Nat → Nat → Nat
  | 0, acc => acc
  | f + 1, acc => if (s.pt (acc + 1)).2 < minPage then cleanCount s minPage f (acc + 1) else acc

/-- embedDB.c:2100-2119 `cleanSpline`.  `numPointsErased -= 2 - (count - numPointsErased)` is `uint32_t`
arithmetic; when it wraps (fewer than two points stored) `splineErase` refuses because the number exceeds
`count`, which is modelled by the first branch. -/
def clean (s : Spline) (minPage : Nat) : Spline :=
  let n := s.cleanCount minPage s.count 0
  if s.count - n < 2 then
    if n < 2 - (s.count - n) then s            -- wrapped around: `numPoints > count`, nothing erased
    else s.erase (n - (2 - (s.count - n)))
  else s.erase n

end Spline

end EDB
