import Verif.Model.Iter
import Verif.Model.Query
import Mathlib.Logic.Function.Basic

/-!
# Model of the table scan operator of `src/query-interface/advancedQueries.c`

The world of a query is the state of every table (`T` names the tables, `cs` holds their configurations).  Operators
reading the same table share its read buffers.  `nextBuf` is `embedDBNext` together with the caller's `key` and `data`
buffers, which for a table scan are the two parts of the operator's record buffer: `embedDBNext` copies every record it
examines there before testing it, so a call that returns 0 may leave a record behind that does not qualify.
-/

namespace EDB

/-- embedDB.c:1779-1781: the caller's buffers after the slots `i ≤ .. < j` were examined. -/
def copied (c : Cfg) (p : Page) (i j : Nat) (b : List Byte) : List Byte :=
  if i < j then rd p (slotOff c (j - 1)) (c.keySize + c.dataSize) else b

/-- embedDB.c:1732-1806 `embedDBNext`, the outer loop, with `key` and `data` next to each other in `b`. -/
def nextBufLoop (c : Cfg) : Nat → Data → Idx → Iter → List Byte → Res (Data × Idx × Iter × Option (Nat × List Byte) × List Byte)
  | 0, _, _, _, _ => .fuel
  | f + 1, d, x, it, b =>
    if it.page > d.next then .ok (d, x, it, none, b)
    else do
      let (x, sk) ← idxSkip c x it
      match sk with
      | none => .ok (d, x, it, none, b)
      | some true => nextBufLoop c f d x { it with page := it.page + 1 } b
      | some false =>
        let (d, ok) := if it.page = d.next then (d, true) else readPage d (it.page % c.N)
        if ok then
          let p := if it.page = d.next then d.wbuf else d.rbuf
          match recLoop c it p (pageCount p - it.slot) it.slot with
          | (i, none) => nextBufLoop c f d x { it with page := it.page + 1, slot := 0 } (copied c p it.slot i b)
          | (i, some out) => .ok (d, x, { it with slot := i }, out, copied c p it.slot i b)
        else .ok (d, x, it, none, b)

/-- embedDB.c:1732-1806 `embedDBNext` with the caller's buffers. -/
def nextBuf (c : Cfg) (d : Data) (x : Idx) (it : Iter) (b : List Byte) :
    Res (Data × Idx × Iter × Option (Nat × List Byte) × List Byte) :=
  nextBufLoop c (d.next + 1 - it.page + 1) d x it b

variable {T : Type} [DecidableEq T]

/-- advancedQueries.c:143-160: the checks of `initTableScan`. -/
def scanSchemaOk (c : Cfg) (s : Schema) : Prop :=
  2 ≤ s.length ∧ 0 < s.getD 0 0 ∧ (s.getD 0 0).natAbs = c.keySize ∧ recordSize s = c.keySize + c.dataSize

instance (c : Cfg) (s : Schema) : Decidable (scanSchemaOk c s) := by unfold scanSchemaOk; infer_instance

/-- advancedQueries.c:125-241: table scan of table `t` with schema `s` and the initialised iterator `it`.  If a check of
`initTableScan` fails the record buffer stays NULL and `nextTableScan` writes through it.  The record buffer starts
zeroed as in the other operators (its content is not read before the first row). -/
def tableScan (cs : T → Cfg) (t : T) (s : Schema) (it : Iter) : Oper (T → Data × Idx) where
  σ := Iter × List Byte
  schema := s
  start := (it, List.replicate (recordSize s) 0)
  next w st :=
    if scanSchemaOk (cs t) s then do
      let (d, x, it, out, b) ← nextBuf (cs t) (w t).1 (w t).2 st.1 st.2
      .ok (Function.update w t (d, x), (it, b), out.isSome)
    else .ub
  buf st := st.2

end EDB
