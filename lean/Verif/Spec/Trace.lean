import Verif.Spec.Scan

/-!
# Specification: what a client may observe

A history is a list of operations with their observed results.  `Run` says that every observation is the one an
abstract log of records would give.
-/

namespace Spec

/-- Operations of a client on a table. -/
inductive Op where
  | put (key : Nat) (data : List UInt8)
  | flush
  | get (key : Nat)
  /-- open an iterator with these bounds and advance it until it reports the end -/
  | scan (q : Range)
deriving DecidableEq

/-- Observed results. -/
inductive Out where
  /-- return code of put/flush -/
  | code (r : Int)
  /-- return code of get and the bytes it copied out, if any -/
  | got (r : Int) (data : Option (List UInt8))
  /-- the rows a scan returned -/
  | rows (rs : List Rec)
deriving DecidableEq

/-- Operations with their results; `none` means that the library did not return (undefined behaviour or no
termination). -/
abbrev History := List (Op × Option Out)

/-- The correct result of looking up `k` among the records `rs`: 0 and the data, or -1 and nothing. -/
def answer (rs : List Rec) (k : Nat) : Out :=
  match lookup rs k with
  | some v => .got 0 (some v)
  | none => .got (-1) none

/-- A put may be refused although its key is ascending only when the write buffer is empty and the newest page is not
full (a flush has just completed a partial page). -/
def MayRefuse (cap : Nat) (l : Log) : Prop := l.buf = [] ∧ ∃ ps pg, l.pages = ps ++ [pg] ∧ pg.length ≠ cap

/-- Every observation agrees with the abstract log.  `kept l` are the records that must still be found; observations
are constrained as long as the log satisfies `limit`. -/
def Run (limit : Log → Prop) (kept : Log → List Rec) (cap : Nat) (cmp : List UInt8 → List UInt8 → Int) :
    Log → History → Prop
  | _, [] => True
  | l, (.put k v, o) :: t => limit (l.put cap (k, v)) →
      (o = some (.code 0) ∧ Run limit kept cap cmp (l.put cap (k, v)) t) ∨
      (o = some (.code 1) ∧ MayRefuse cap l ∧ Run limit kept cap cmp l t)
  | l, (.flush, o) :: t => limit l.flush → o = some (.code 0) ∧ Run limit kept cap cmp l.flush t
  | l, (.get k, o) :: t => o = some (answer (kept l) k) ∧ Run limit kept cap cmp l t
  | l, (.scan q, o) :: t => o = some (.rows (scan cmp q (kept l))) ∧ Run limit kept cap cmp l t

/-- The log after a history: exactly the puts that returned 0 count. -/
def logAfter (cap : Nat) : Log → History → Log
  | l, [] => l
  | l, (.put k v, some (.code 0)) :: t => logAfter cap (l.put cap (k, v)) t
  | l, (.flush, some (.code 0)) :: t => logAfter cap l.flush t
  | l, _ :: t => logAfter cap l t

/-- The keys offered for insertion, in order. -/
def offered : List Op → List Nat
  | [] => []
  | .put k _ :: t => k :: offered t
  | _ :: t => offered t

/-- Every insert returns, returns 0 exactly if its key is greater than all keys accepted before (`acc`), and only then
is the key accepted. -/
def Ordered : List Nat → History → Prop
  | _, [] => True
  | acc, (.put k _, o) :: t =>
      ((∀ a ∈ acc, a < k) ∧ o = some (.code 0) ∧ Ordered (k :: acc) t) ∨
      ((∃ a ∈ acc, k ≤ a) ∧ (∃ r, o = some (.code r) ∧ r ≠ 0) ∧ Ordered acc t)
  | acc, _ :: t => Ordered acc t

/-- An insert. -/
def Op.isPut : Op → Prop
  | .put _ _ => True
  | _ => False

/-- A lookup or a scan. -/
def Op.isRead : Op → Prop
  | .get _ => True
  | .scan _ => True
  | _ => False

end Spec
