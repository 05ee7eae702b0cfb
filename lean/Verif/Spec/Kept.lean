import Verif.Spec.Var
import Verif.Spec.Ring

/-!
# Specification: variable data after a power failure

Judged on the records kept, the variable data inserted with them, and what was written to the variable data file.
-/

namespace Spec

open EDB (Ev Page Byte rd leNat)

/-- Number of the oldest page that a ring of `N` pages in blocks of `B` still counts as stored when it is opened again after
`n` pages: none was overwritten; or the file is just full; or the block with the page written last is being filled and the
rest of it counts as free. -/
def firstKept (N B n : Nat) : Nat := if n ≤ N then 0 else if n % N = 0 then n - N else n + (B - n % B) - N

/-- The data of key `k` is given up: the oldest page counted as stored is not the first page ever, and names a key that is
not smaller (`keySize` bytes behind the page number). -/
def GivenUp (keySize N B : Nat) (log : List Ev) (k : Nat) : Prop :=
  0 < firstKept N B (writes log).length ∧
    ∃ ph p, (writes log)[firstKept N B (writes log).length]? = some (ph, p) ∧ k ≤ leNat (rd p 4 keySize)

/-- The answer to a lookup of `k` with its variable data: no such record; a record without variable data; or a record whose
data is given up (code 1) or complete. -/
def KeptAnswer (kept : List Rec) (var : Nat → Option (List Byte)) (gone : Nat → Prop) (k : Nat) (o : VOut) : Prop :=
  match lookup kept k with
  | none => o = .gotVar (-1) none none
  | some a => match var k with
    | none => o = .gotVar 0 (some a) none
    | some b => (gone k ∧ o = .gotVar 1 (some a) none) ∨ (¬ gone k ∧ o = .gotVar 0 (some a) (some b))

end Spec
