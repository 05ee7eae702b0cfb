import Verif.Model.VarCrash
import Verif.Model.Life

/-!
# Model of opening an existing variable data file

`embedDBInit` without EMBEDDB_RESET_DATA on a table with variable data: embedDB.c:243-262 (data file first, then the
variable data file), 696-722 `embedDBInitVarData`, 724-858 `embedDBInitVarDataFromFile`.

Simplifications: `count` and `physicalVariablePageId` are incremented together up to the block-boundary search, so one
variable `pos` stands for both (`count` is not used afterwards); both files exist and can be opened.
-/

namespace EDB

open Spec (VOp VOut)

/-- Local variables of the scan for the newest variable page. -/
structure VFound where
  v : Var
  /-- `count` = `physicalVariablePageId` -/
  pos : Nat
  /-- `maxLogicalVariablePageId`, once `hasData` -/
  last : Option Nat
  /-- `moreToRead` -/
  more : Bool

/-- embedDB.c:738-767: the loop `while (moreToRead && i < 2)`.  A round that does not count (valid page, number and
largest key 0) is possible at position 0 only, so three rounds are enough. -/
def probeVar (c : Cfg) : Nat → Nat → Var → Nat → Bool → VFound
  | 0, _, v, pos, more => ⟨v, pos, none, more⟩
  | n + 1, i, v, pos, more =>
    if more ∧ i < 2 then
      if pageId v.rbuf % c.numVar = pos then
        let r := readVar v (pos + 1)
        if pageId v.rbuf ≠ 0 ∨ leNat (rd v.rbuf 4 c.keySize) ≠ 0 then ⟨r.1, pos + 1, some (pageId v.rbuf), r.2⟩
        else probeVar c n i r.1 (pos + 1) r.2
      else
        let ph := pos + (c.B - pos % c.B)
        let r := readVar v ph
        probeVar c n (i + 1) r.1 ph r.2
    else ⟨v, pos, none, more⟩

/-- embedDB.c:774-786: follow the pages with consecutive numbers. -/
def followVar (c : Cfg) : Nat → Var → Nat → Nat → Bool → Var × Nat × Nat × Bool
  | 0, v, pos, last, more => (v, pos, last, more)
  | n + 1, v, pos, last, more =>
    if more ∧ pos < c.numVar then
      if pageId v.rbuf % c.numVar = pos ∧ pageId v.rbuf = (last + 1) % 2 ^ 32 then
        let r := readVar v (pos + 1)
        followVar c n r.1 (pos + 1) (pageId v.rbuf) r.2
      else (v, pos, last, more)
    else (v, pos, last, more)

/-- embedDB.c:828-851: `minVarRecordId`, given that the variable page with the smallest data is in the read buffer. -/
def setMinRec (c : Cfg) (d : Data) (v : Var) : Data × Var × Bool :=
  if pageId v.rbuf = 0 then
    if c.rlc ∧ d.next = 0 then (d, { v with minRec := pageMinKey c d.wbuf }, true)
    else
      let r := readPage d (d.min % c.N)
      if r.2 then (r.1, { v with minRec := pageMinKey c r.1.rbuf }, true) else (r.1, v, false)
  else (d, { v with minRec := (setLow c.keySize v.minRec (leNat (rd v.rbuf 4 c.keySize)) + 1) % 2 ^ 64 }, true)

/-- embedDB.c:815-857: set the counters, given the newest page number and the physical page holding the oldest one. -/
def setVarCounters (c : Cfg) (d : Data) (v : Var) (last smallest : Nat) : Data × Var × Int :=
  let r := readVar { v with next := (last + 1) % 2 ^ 32 } smallest
  if r.2 then
    let m := setMinRec c d r.1
    if m.2.2 then
      (m.1, { m.2.1 with avail := u32 (c.numVar + pageId r.1.rbuf - last - 1), loc := r.1.next % c.numVar * c.pageSize + c.vhdr }, 0)
    else (m.1, m.2.1, -1)
  else (d, r.1, -1)

/-- embedDB.c:788-857: find the oldest page and set the counters. -/
def finishVar (c : Cfg) (d : Data) (v : Var) (pos last : Nat) (more : Bool) : Data × Var × Int :=
  if more ∧ pos < c.numVar then
    let ph := (pos + (c.B - pos % c.B)) % c.numVar
    let r := readVar v ph
    if r.2 then setVarCounters c d r.1 last (if pageId r.1.rbuf % c.numVar = ph then ph else 0)
    else (d, r.1, -1)
  else setVarCounters c d v last 0

/-- embedDB.c:724-858 `embedDBInitVarDataFromFile`; the data file has been recovered to `d`. -/
def recoverVar (c : Cfg) (d : Data) (v : Var) : Data × Var × Int :=
  let r := readVar v 0
  let f := probeVar c 3 0 r.1 0 r.2
  match f.last with
  | none => (d, f.v, 0)
  | some last =>
    let (v, pos, last, more) := followVar c c.numVar f.v f.pos last f.more
    finishVar c d v pos last more

/-- The state of `embedDBInitVarData` just before an existing variable data file is read (embedDB.c:696-711). -/
def Var.opening (c : Cfg) (V : Dev) (rb : Page) (hv : Bool) : Var := { Var.fresh c rb hv with dev := V }

/-- embedDB.c:243-262 and 696-722: `embedDBInit` without EMBEDDB_RESET_DATA on existing files `D` (data) and `V`
(variable data).  If the data file contains no page, the variable data file is truncated. -/
def reopenV (c : Cfg) (D V : Dev) (rb : Page) (sm : Nat → Nat × Nat) (vrb : Page) (hv : Bool) : Data × Var × Int :=
  let r := recover c D rb sm
  if r.2 ≠ 0 then (r.1, Var.opening c V vrb hv, r.2)
  else if r.1.next > 0 ∨ c.rlc then recoverVar c r.1 (Var.opening c V vrb hv)
  else (r.1, Var.fresh c vrb hv, 0)

/-! ## Power failures -/

/-- The device after the first `j` of the storage operations that took `a` to `b`. -/
def cutFrom (c : Cfg) (a b : Dev) (j : Nat) : Dev := ⟨cutBetween c a b j, a.log ++ (between a b).take j, b.reqs⟩

/-- Power fails during an operation: the two devices then found (as `CrashV`). -/
inductive PowerFail (c : Cfg) (d : Data) (x : Idx) (v : Var) : VOp → Dev → Dev → Prop
  | putBefore (k a b j) : PowerFail c d x v (.put k a b) d.dev (cutFrom c v.dev (preVar c d v).dev j)
  | putData (k a b j) {d' x' v' o} (h : stepV c d x v (.put k a b) = .ok (d', x', v', o)) :
      PowerFail c d x v (.put k a b) (cutFrom c d.dev d'.dev j) (preVar c d v).dev
  | putAfter (k a b j) {d' x' v' o} (h : stepV c d x v (.put k a b) = .ok (d', x', v', o)) :
      PowerFail c d x v (.put k a b) d'.dev (cutFrom c (preVar c d v).dev v'.dev j)
  | flushData (j) {d' x' v' o} (h : stepV c d x v .flush = .ok (d', x', v', o)) :
      PowerFail c d x v .flush (cutFrom c d.dev d'.dev j) v.dev
  | flushVar (j) {d' x' v' o} (h : stepV c d x v .flush = .ok (d', x', v', o)) :
      PowerFail c d x v .flush d'.dev (cutFrom c v.dev v'.dev j)
  | get (k) : PowerFail c d x v (.get k) d.dev v.dev
  | getVar (k j) {d' x' v' o} (h : stepV c d x v (.getVar k) = .ok (d', x', v', o)) :
      PowerFail c d x v (.getVar k) d.dev (cutFrom c v.dev v'.dev j)

end EDB
