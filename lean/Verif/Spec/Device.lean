import Verif.Model.Data
import Verif.Spec.Log

/-!
# Specification: what a sequence of storage operations means

Judged on the history of the operations that reached the device (`EDB.Ev`), without looking at the library's counters.
-/

namespace Spec

open EDB (Ev Page)

/-- The page writes of a history, in order: where and what. -/
def writes : List Ev → List (Nat × Page)
  | [] => []
  | .write ph p :: t => (ph, p) :: writes t
  | .erase _ _ :: t => writes t

/-- Every write goes to a page that was never written or has been erased since its last write.  `dirty` are the pages
written and not erased since. -/
def ErasedFirst : (Nat → Prop) → List Ev → Prop
  | _, [] => True
  | dirty, .write ph _ :: t => ¬ dirty ph ∧ ErasedFirst (fun i => i = ph ∨ dirty i) t
  | dirty, .erase lo hi :: t => ErasedFirst (fun i => dirty i ∧ ¬ (lo ≤ i ∧ i < hi)) t

/-- What one storage operation does to the pages of a file; `fx` is the effect of an erase on the content of a page. -/
def applyEv (fx : Option Page → Option Page) (file : Nat → Option Page) : Ev → Nat → Option Page
  | .write ph p, i => if i = ph then some p else file i
  | .erase lo hi, i => if lo ≤ i ∧ i < hi then fx (file i) else file i

/-- What a sequence of operations makes of a file with content `init`. -/
def imageOn (init : Nat → Option Page) (fx : Option Page → Option Page) (log : List Ev) : Nat → Option Page :=
  log.foldl (applyEv fx) init

/-- The content of a file, initially empty, after a sequence of operations.  Applied to a prefix of the operations of
an execution it is what a power failure at that moment leaves behind. -/
def image (fx : Option Page → Option Page) (log : List Ev) : Nat → Option Page := log.foldl (applyEv fx) fun _ => none

/-- The first page still known after a table with `n` pages is reopened: nothing more is given up than what had to be
dropped for those `n` pages, except that a table whose ring is cut exactly at a block boundary (other than the end of
the file) loses the block it would have reclaimed next. -/
def recovered (N B n : Nat) : Nat :=
  dropped N B n + (if N < n ∧ n % B = 0 ∧ n % N ≠ 0 then B else 0)

/-- The records stored on `n` consecutive pages from page `m` on of a file of `N` pages, where `recsOf` reads a page. -/
def storedRecs (recsOf : Page → List Rec) (file : Nat → Option Page) (N m n : Nat) : List Rec :=
  ((List.range n).map fun i => ((file ((m + i) % N)).map recsOf).getD []).flatten

/-- The file holds what the storage operations made; where they made nothing, it is unreadable or reads as a page with `blank`. -/
def MadeBy (fx : Option (Nat → UInt8) → Option (Nat → UInt8)) (blank : (Nat → UInt8) → Prop) (log : List Ev) (file : Nat → Option (Nat → UInt8)) : Prop :=
  ∀ ph, (∀ q, image fx log ph = some q → file ph = some q) ∧ (image fx log ph = none → ∀ q, file ph = some q → blank q)

end Spec
