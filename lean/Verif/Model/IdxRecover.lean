import Verif.Model.Index
import Verif.Model.Life

/-!
# Model of opening an existing index file

`embedDBInit` without EMBEDDB_RESET_DATA on a table with a bitmap index: embedDB.c:226-254 (data file first, then the
index file), 599-654 `embedDBInitIndex`, 656-694 `embedDBInitIndexFromFile`.

Simplifications: `count` and `physicalIndexPageId` are always equal, so one variable `pos` stands for both; both files exist
and can be opened, and the checks of the number of index pages (embedDB.c:616-635) succeed.
-/

namespace EDB

open Spec (Log Op Out)

/-- embedDB.c:670-682: follow the pages with consecutive numbers; the first page is always accepted.  Result: state,
`count`, `maxLogicaIndexPageId` and, if `haveWrappedInMemory`, `logicalIndexPageId`. -/
def followIdx (c : Cfg) : Nat → Idx → Nat → Nat → Bool → Idx × Nat × Nat × Option Nat
  | 0, x, pos, last, _ => (x, pos, last, none)
  | n + 1, x, pos, last, more =>
    if more ∧ pos < c.numIdx then
      if pos = 0 ∨ pageId x.rbuf = (last + 1) % 2 ^ 32 then
        let r := readIdx x (pos + 1)
        followIdx c n r.1 (pos + 1) (pageId x.rbuf) r.2
      else (x, pos, last, if pageId x.rbuf = u32 (last - c.numIdx + 1) then some (pageId x.rbuf) else none)
    else (x, pos, last, none)

/-- embedDB.c:656-694 `embedDBInitIndexFromFile` (result 0).  The result of the last `readIndexPage` is not looked at. -/
def recoverIdx (c : Cfg) (x : Idx) : Idx :=
  let r := readIdx x 0
  let (x, pos, last, wrapped) := followIdx c c.numIdx r.1 0 0 r.2
  if pos = 0 then x
  else
    let r := readIdx { x with next := (last + 1) % 2 ^ 32 } (match wrapped with | some l => l % c.numIdx | none => 0)
    { r.1 with min := pageId r.1.rbuf, avail := u32 (c.numIdx + pageId r.1.rbuf - last - 1) }

/-- The state of `embedDBInitIndex` just before an existing index file is read (embedDB.c:599-614), for a data file whose
next page is `next`. -/
def Idx.opening (c : Cfg) (X : Dev) (rb : Page) (next : Nat) : Idx :=
  { Idx.fresh c rb with dev := X, wbuf := wr (initPage c) 8 (leBytes 4 next) }

/-- embedDB.c:226-254: `embedDBInit` without EMBEDDB_RESET_DATA on existing files `D` (data) and `X` (index). -/
def openX (c : Cfg) (D X : Dev) (rb : Page) (sm : Nat → Nat × Nat) (rb' : Page) : Data × Idx × Int :=
  let r := recover c D rb sm
  if r.2 ≠ 0 then (r.1, Idx.opening c X rb' r.1.next, r.2)
  else (r.1, recoverIdx c (Idx.opening c X rb' r.1.next), 0)

/-! ## Power failures -/

/-- Power may fail when `k` storage operations on the data file and `j` on the index file have been carried out, during the
operation that takes `(d, x)` to `(d', x')`: the data page is written before the index page (embedDB.c:1029, 1039 and 1671, 1694). -/
def Moment (d : Data) (x : Idx) (d' : Data) (k j : Nat) : Prop :=
  d.dev.log.length ≤ k ∧ (j = x.dev.log.length ∨ (d'.dev.log.length ≤ k ∧ x.dev.log.length ≤ j))

/-- Power fails after `k` storage operations on the data file and `j` on the index file, and the table is opened again. -/
def reopenX (c : Cfg) (v w : Dev) (k j : Nat) (rb : Page) (sm : Nat → Nat × Nat) (rb' : Page) : Data × Idx × Int :=
  openX c (cutDev c v k) (cutDev c w j) rb sm rb'

end EDB
