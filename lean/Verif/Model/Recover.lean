import Verif.Model.Data

/-!
# Model of opening an existing data file

`embedDBInit` without EMBEDDB_RESET_DATA when the data file exists: embedDB.c:274-316 `embedDBInitData`, 318-414
`embedDBInitDataFromFile`, 416-585 `embedDBInitDataFromFileWithRecordLevelConsistency`, 587-597
`embedDBInitSplineFromFile`.

Simplifications: `count` and `physicalPageId` are incremented together up to the block-boundary search, so one
variable `pos` stands for both; `updateMaxiumError` (statistics only) is omitted; the device's `read` of an
existing file returns what was last written to a page, or fails.
-/

namespace EDB

/-- C arithmetic on `uint32_t` of a possibly negative result. -/
def u32 (z : Int) : Nat := (z % 2 ^ 32).toNat

/-- Local variables of the scan for the newest page. -/
structure Found where
  d : Data
  /-- `count` = `physicalPageId` -/
  pos : Nat
  /-- `maxLogicalPageId`, once a page with data was found (`hasData`) -/
  last : Option Nat
  /-- `moreToRead` -/
  more : Bool

/-- embedDB.c:337-338: does the page in the read buffer look like a data page stored at `pos`?  `numRecords` is an
`int8_t`. -/
def looksValid (c : Cfg) (p : Page) (pos : Nat) : Bool :=
  pageId p % c.N = pos ∧ toInt8 (pageCount p) > 0 ∧ toInt8 (pageCount p) < c.maxRec + 1

/-- embedDB.c:334-351 (2 rounds) and 434-452 (4 rounds): find the first block that starts with a data page. -/
def probe (c : Cfg) : Nat → Data → Nat → Bool → Found
  | 0, d, pos, more => ⟨d, pos, none, more⟩
  | n + 1, d, pos, more =>
    if more then
      if looksValid c d.rbuf pos then
        let r := readPage d (pos + 1)
        ⟨r.1, pos + 1, some (pageId d.rbuf), r.2⟩
      else
        let r := readPage d (pos + c.B)
        probe c n r.1 (pos + c.B) r.2
    else ⟨d, pos, none, more⟩

/-- embedDB.c:357-369 and 455-467: follow the pages with consecutive numbers. -/
def follow (c : Cfg) : Nat → Data → Nat → Nat → Bool → Data × Nat × Nat × Bool
  | 0, d, pos, last, more => (d, pos, last, more)
  | n + 1, d, pos, last, more =>
    if more ∧ pos < c.N then
      if pageId d.rbuf % c.N = pos ∧ pageId d.rbuf = (last + 1) % 2 ^ 32 then
        let r := readPage d (pos + 1)
        follow c n r.1 (pos + 1) (pageId d.rbuf) r.2
      else (d, pos, last, more)
    else (d, pos, last, more)

/-- embedDB.c:587-597 `embedDBInitSplineFromFile`: add `n` pages from page `pg` on. -/
def splineFrom (c : Cfg) : Nat → Data → Nat → Data
  | 0, d, _ => d
  | n + 1, d, pg =>
    let d := (readPage d (pg % c.N)).1
    splineFrom c n { d with spl := d.spl.add (pageMinKey c d.rbuf) pg } ((pg + 1) % 2 ^ 32)

/-- embedDB.c:401-413 and 573-582: set the counters, given the newest page number and the physical page holding the
oldest one; `reserved` pages are set aside for record-level consistency. -/
def setCounters (c : Cfg) (d : Data) (last smallest reserved : Nat) : Data :=
  let d := (readPage { d with next := (last + 1) % 2 ^ 32 } smallest).1
  let d := { d with min := pageId d.rbuf, avail := u32 (c.N + pageId d.rbuf - last - 1 - reserved) }
  let d := (readPage d (u32sub d.next 1 % c.N)).1
  if c.binSearch then d else splineFrom c (u32sub d.next d.min) d d.min

/-- embedDB.c:375-413: find the oldest page and set the counters. -/
def finishRecover (c : Cfg) (d : Data) (pos last : Nat) (more : Bool) : Data × Int :=
  if more ∧ pos < c.N then
    let ph := (pos + (c.B - pos % c.B)) % c.N
    let r := readPage d ph
    if r.2 then
      (setCounters c r.1 last (if pageId r.1.rbuf % c.N = ph then ph else 0) 0, 0)
    else (r.1, -1)
  else (setCounters c d last 0 0, 0)

/-- embedDB.c:318-414 `embedDBInitDataFromFile`: the state and the return code. -/
def recoverPlain (c : Cfg) (d : Data) : Data × Int :=
  let r := readPage d 0
  let f := probe c 2 r.1 0 r.2
  match f.last with
  | none => (f.d, 0)
  | some last =>
    let (d, pos, last, more) := follow c c.N f.d f.pos last f.more
    finishRecover c d pos last more

/-- The state of `embedDBInit` just before an existing data file is read (embedDB.c:139-296).  `v` is the device
with the existing file, `rb` and `sm` uninitialised memory. -/
def Data.opening (c : Cfg) (v : Dev) (rb : Page) (sm : Nat → Nat × Nat) : Data :=
  { Data.fresh c rb sm with dev := v }

/-- embedDB.c:498-515: find the record-level-consistency page with the most records.  `best` is the pair of
`rlcMaxRecordCount` and `rlcMaxPage`. -/
def rlcScan (c : Cfg) (want : Nat → Bool) : Nat → Data → Nat → Nat → Option (Nat × Nat) → Bool →
    Data × Option (Nat × Nat)
  | 0, d, _, _, best, _ => (d, best)
  | n + 1, d, ph, i, best, more =>
    if more then
      let best := if want (pageId d.rbuf) then
          match best with
          | none => some (pageCount d.rbuf, i)
          | some (m, j) => if pageCount d.rbuf > m then some (pageCount d.rbuf, i) else some (m, j)
        else best
      let r := readPage d ((ph + 1) % c.N)
      rlcScan c want n r.1 ((ph + 1) % c.N) (i + 1) best r.2
    else (d, best)

/-- embedDB.c:539-549: erase `n` blocks from page `start` on, wrapping. -/
def eraseRlc (c : Cfg) (v : Dev) (start : Nat) : Nat → Dev × Bool
  | 0 => (v, true)
  | n + 1 =>
    let r := v.erase c start (start + c.B)
    if r.2 then eraseRlc c r.1 ((start + c.B) % c.N) n else (r.1, false)

/-- embedDB.c:551-584: after the temporary pages were handled. -/
def finishRlc (c : Cfg) (d : Data) (last : Option Nat) : Data × Int :=
  match last with
  | none => (d, 0)
  | some last =>
    let ph := (d.rlcStart + 2 * c.B) % c.N
    let r := readPage d ph
    (setCounters c r.1 last (if r.2 ∧ pageId r.1.rbuf % c.N = ph then ph else 0) (2 * c.B), 0)

/-- embedDB.c:487-585. -/
def rlcTemp (c : Cfg) (d : Data) (pos : Nat) (last : Option Nat) : Data × Int :=
  let ph := (pos + (c.B - pos % c.B)) % c.N
  let d := { d with rlcStart := ph, rlcNext := ph }
  let r := readPage d ph
  let want (id : Nat) : Bool := id = ((last.getD 0) + 1) % 2 ^ 32 ∨ (id = 0 ∧ last = none)
  let (d, best) := rlcScan c want (2 * c.B) r.1 ph 0 none r.2
  match best with
  | none =>
    let r := eraseRlc c d.dev (ph % c.N) 2
    if r.2 then finishRlc c { d with dev := r.1 } last else ({ d with dev := r.1 }, -1)
  | some (_, j) =>
    let r := readPage { d with rlcNext := (ph + j + 1) % c.N } ((ph + j) % c.N)
    if r.2 then
      let d := { r.1 with wbuf := r.1.rbuf }
      let e := eraseRlc c d.dev ((ph + (if j < c.B then c.B else 0)) % c.N) 1
      if e.2 then finishRlc c { d with dev := e.1 } last else ({ d with dev := e.1 }, -1)
    else (r.1, -1)

/-- embedDB.c:474-485: a recovery that stops on a block boundary erases the block. -/
def rlcBoundary (c : Cfg) (d : Data) (pos : Nat) (last : Option Nat) : Data × Int :=
  if c.B - pos % c.B = c.B then
    let r := d.dev.erase c pos (pos + c.B)
    if r.2 then rlcTemp c { d with dev := r.1 } pos last else ({ d with dev := r.1 }, -1)
  else rlcTemp c d pos last

/-- embedDB.c:416-585 `embedDBInitDataFromFileWithRecordLevelConsistency`. -/
def recoverRlc (c : Cfg) (d : Data) : Data × Int :=
  let r := readPage d 0
  let f := probe c 4 r.1 0 r.2
  match f.last with
  | none => rlcBoundary c f.d 0 none
  | some last =>
    let (d, pos, last, _) := follow c c.N f.d f.pos last f.more
    rlcBoundary c d pos (some last)

/-- embedDB.c:294-303: open an existing data file. -/
def recover (c : Cfg) (v : Dev) (rb : Page) (sm : Nat → Nat × Nat) : Data × Int :=
  if c.rlc then recoverRlc c (Data.opening c v rb sm) else recoverPlain c (Data.opening c v rb sm)

end EDB
