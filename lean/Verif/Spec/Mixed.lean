import Verif.Spec.Cursor

/-!
# Specification: cursors that stay open while the table grows

A cursor has a queue of the rows it has still to deliver.  Every accepted record within the bounds of an open cursor is
appended to its queue; a `next` takes the first row of the queue of this cursor and of no other.  When the queue is empty
the cursor reports the end.

Two limits on what is promised.  After a cursor has reported the end it is *over*: rows that arrive later may be left
out, those delivered are still in order and without repetition.  And a cursor stands on the page of the row it delivered
last (at first: on the oldest page); when this page has been dropped, nothing is promised about it any more.
-/

namespace Spec

/-- Operations of a client with cursors, which are named by numbers. -/
inductive MOp where
  | op (o : Op)
  | opn (i : Nat) (q : Range)
  | nxt (i : Nat)
deriving DecidableEq

/-- Observed results. -/
inductive MOut where
  | out (o : Out)
  | opened
  /-- the record delivered, or the end -/
  | row (r : Option Rec)
deriving DecidableEq

/-- An open cursor. -/
structure Cursor where
  q : Range
  /-- rows still to deliver -/
  rows : List Rec
  /-- the page it stands on -/
  pos : Nat
  /-- the end has been reported -/
  over : Bool

/-- A record has been inserted. -/
def Cursor.add (cmp : List UInt8 → List UInt8 → Int) (k : Cursor) (r : Rec) : Cursor :=
  { k with rows := k.rows ++ scan cmp k.q [r] }

/-- The page with this key; the buffer counts as the page after the last one. -/
def Log.pageOf (l : Log) (key : Nat) : Nat := (l.pages ++ [l.buf]).findIdx fun pg => pg.any fun r => r.1 == key

/-- The observation of one operation is the right one, and afterwards, for the new log and cursors, `P` holds.
`oldest l` is the number of the oldest page not dropped; inserts and flushes are constrained as long as the log then
satisfies `limit`. -/
def MixStep (limit : Log → Prop) (oldest : Log → Nat) (cap : Nat) (cmp : List UInt8 → List UInt8 → Int)
    (l : Log) (cs : Nat → Option Cursor) (o : Option MOut) (P : Log → (Nat → Option Cursor) → Prop) : MOp → Prop
  | .op (.put k v) => limit (l.put cap (k, v)) →
      (o = some (.out (.code 0)) ∧ P (l.put cap (k, v)) (fun i => (cs i).map (·.add cmp (k, v)))) ∨
      (o = some (.out (.code 1)) ∧ MayRefuse cap l ∧ P l cs)
  | .op .flush => limit l.flush → o = some (.out (.code 0)) ∧ P l.flush cs
  | .op (.get k) => o = some (.out (answer (l.live (oldest l)) k)) ∧ P l cs
  | .op (.scan q) => o = some (.out (.rows (scan cmp q (l.live (oldest l))))) ∧ P l cs
  | .opn i q => o = some .opened ∧ P l (setAt cs i (some ⟨q, scan cmp q (l.live (oldest l)), oldest l, false⟩))
  | .nxt i => ∀ k, cs i = some k → oldest l ≤ k.pos →
      match k.over, k.rows with
      | false, [] => o = some (.row none) ∧ P l (setAt cs i (some { k with over := true }))
      | false, r :: rs => o = some (.row (some r)) ∧ P l (setAt cs i (some { k with rows := rs, pos := l.pageOf r.1 }))
      | true, rows =>
          (o = some (.row none) ∧ P l (setAt cs i (some { k with rows := [] }))) ∨
          ∃ pre r rs, rows = pre ++ r :: rs ∧ o = some (.row (some r)) ∧
            P l (setAt cs i (some { k with rows := rs, pos := l.pageOf r.1 }))

/-- Every observation is the right one. -/
def MixRun (limit : Log → Prop) (oldest : Log → Nat) (cap : Nat) (cmp : List UInt8 → List UInt8 → Int) :
    Log → (Nat → Option Cursor) → List (MOp × Option MOut) → Prop
  | _, _, [] => True
  | l, cs, (op, o) :: t => MixStep limit oldest cap cmp l cs o (fun l cs => MixRun limit oldest cap cmp l cs t) op

/-- The operations that are not about cursors. -/
def plainOps : List MOp → List Op
  | [] => []
  | .op o :: t => o :: plainOps t
  | _ :: t => plainOps t

end Spec
