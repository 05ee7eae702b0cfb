import Verif.Spec.Device
import Verif.Spec.Page

/-!
# Specification: record-level consistency

What a table may hold after inserts and flushes some of which were cut off by a power failure, and when a sequence of
storage operations leaves retained permanent pages alone.
-/

namespace Spec

open EDB (Ev Page)

/-- What a client tried, in order. -/
inductive Attempt where
  /-- an insert that returned 0 -/
  | put (r : Rec)
  /-- a flush that returned 0 -/
  | flush
  /-- an insert during which power failed -/
  | putCut (r : Rec)
  /-- a flush during which power failed -/
  | flushCut

/-- What may be left of a table that held `L` when power fails during the insert of `r`. -/
inductive CutPut (cap : Nat) (L : Log) (r : Rec) : Log → Prop
  /-- nothing happened yet -/
  | before : CutPut cap L r L
  /-- the full page was completed, the record is lost -/
  | full (h : cap ≤ L.buf.length) : CutPut cap L r ⟨L.pages ++ [L.buf], []⟩
  /-- the record was already safe -/
  | after : CutPut cap L r (L.put cap r)

/-- The tables that may result from these attempts: nothing acknowledged is ever lost, an insert or flush that was cut
off happened or not. -/
inductive MayHold (cap : Nat) : List Attempt → Log → Prop
  | nil : MayHold cap [] Log.empty
  | put {H : List Attempt} {L : Log} (h : MayHold cap H L) (r : Rec) : MayHold cap (H ++ [.put r]) (L.put cap r)
  | flush {H : List Attempt} {L : Log} (h : MayHold cap H L) : MayHold cap (H ++ [.flush]) L.flush
  | putCut {H : List Attempt} {L L' : Log} (h : MayHold cap H L) (r : Rec) (e : CutPut cap L r L') :
      MayHold cap (H ++ [.putCut r]) L'
  | flushCut {H : List Attempt} {L L' : Log} (h : MayHold cap H L) (e : L' = L ∨ L' = L.flush) :
      MayHold cap (H ++ [.flushCut]) L'

/-- The records offered, acknowledged or not. -/
def tried : List Attempt → List Rec
  | [] => []
  | .put r :: t => r :: tried t
  | .putCut r :: t => r :: tried t
  | _ :: t => tried t

/-- The records whose insert was acknowledged. -/
def acked : List Attempt → List Rec
  | [] => []
  | .put r :: t => r :: acked t
  | _ :: t => acked t

/-- The number of pages dropped once `n` pages were completed, in a ring of `N` pages two blocks of which are set aside
and one is kept free for the next pages. -/
def rlcDropped (N B n : Nat) : Nat := (n / B + 3) * B - N

/-- Page `l` is a retained one of `n` pages. -/
def Retained (N B n l : Nat) : Prop := l < n ∧ rlcDropped N B n ≤ l

/-- A history of storage operations, `n` permanent pages having been written before it, in which permanent pages are
written one after the other, each at its place in the ring, and neither a write of any other (temporary) page nor an
erase ever hits a retained permanent page.  A permanent page is one written at the place its number says. -/
def KeepsPermanent (N B : Nat) : Nat → List Ev → Prop
  | _, [] => True
  | n, .write ph p :: t =>
      (pageNo p % N = ph ∧ pageNo p = n ∧ KeepsPermanent N B (n + 1) t) ∨
      (pageNo p % N ≠ ph ∧ (∀ l, Retained N B n l → l % N ≠ ph) ∧ KeepsPermanent N B n t)
  | n, .erase lo hi :: t =>
      (∀ l, Retained N B n l → ¬ (lo ≤ l % N ∧ l % N < hi)) ∧ KeepsPermanent N B n t

end Spec
