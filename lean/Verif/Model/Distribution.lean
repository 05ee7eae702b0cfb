import Verif.Model.Estimate

/-!
# Model of the single-file distribution

`lib/Distribution/embedDB.c` and `lib/Distribution/embedDB.h` are a copy of `src/embedDB`, `src/spline` and `src/query-interface` in
two files.  Apart from white space and includes the copy differs in one place: line 884 of `src/embedDB/embedDB.c`,

    if(EMBEDDB_GET_COUNT(buffer) == 0) slopeX2 = 0;

is missing in its `embedDBCalculateSlope`.  This file models that function and those that call it.  Line numbers with `D:` are
those of lib/Distribution/embedDB.c.

`M` is the number of bytes from the start of the page in question to the end of the array `state->buffer` that contains it.
-/

namespace EDB

open Spec (Rnd)

/-- D:1302-1338 `embedDBCalculateSlope`.  `slopeX2` is a `uint32_t`, so for an empty page it is 2^32 - 1, and so is the product with
`state->recordSize`.  Reading beyond the end of the buffer is undefined. -/
def slopeOfD (r : Rnd 24) (c : Cfg) (M : Nat) (p : Page) : Res ℚ :=
  let x2 := (pageCount p + (2 ^ 32 - 1)) % 2 ^ 32
  if x2 = 0 then .ok 1
  else
    let off := c.hdr + (c.recSize * x2) % 2 ^ 32
    if off + c.keySize ≤ M then
      .ok (r.f (r.f (subMod (keyMod c) (leNat (rd p off c.keySize)) (slotKey c p 0)) / r.f x2))
    else .ub

/-- D:1703-1713 `embedDBEstimateKeyLocation`. -/
def estimateLocD (r : Rnd 24) (c : Cfg) (M : Nat) (p : Page) (key : Nat) : Res Int := do
  let s ← slopeOfD r c M p
  if s = 0 then .ub else toSigned (2 ^ 15) (r.f (r.f (subMod (2 ^ 64) key (pageMinKey c p)) / s))

/-- D:1722-1759 `embedDBSearchNode` (`range = 0`). -/
def searchNodeD (r : Rnd 24) (c : Cfg) (M : Nat) (p : Page) (key : Nat) : Res (Option Nat) := do
  let e ← estimateLocD r c M p key
  let count := pageCount p
  let last : Int := (count : Int) - 1
  let middle := if e ≥ count ∨ e ≤ 0 then last.tdiv 2 else e
  let middle := if middle > last then last else middle
  nodeLoop c p key (count + 1) 0 last middle

/-- D:1893-1951 `embedDBGet`. -/
def getD (r : Rnd 24) (c : Cfg) (M : Nat) (d : Data) (key : Nat) : Res (Data × Int × Option (List Byte)) :=
  getW (searchNodeD r c M) c d key

/-- D:1345-1409 `getMaxError`; `w` is the write buffer. -/
def getMaxErrD (r : Rnd 24) (c : Cfg) (M : Nat) (p w : Page) : Res Int := do
  let s ← slopeOfD r c M (if c.keySize ≤ 4 then p else w)
  let m ← maxErrLoop r c p s c.maxRec 0 0
  .ok (if m > c.maxRec then c.maxRec else m)

/-- D:742-838 `embedDBInitDataFromFile`. -/
def recoverPlainD (r : Rnd 24) (c : Cfg) (M : Nat) (d : Data) : Res (Data × Int) := recoverWith (getMaxErrD r c M) c d

end EDB
