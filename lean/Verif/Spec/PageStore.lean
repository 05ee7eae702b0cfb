import Verif.Model.Bytes

/-!
# Specification: a page store

What `embedDBFileInterface` (embedDB.h:147-196) promises: an array of pages of which some can be read.
-/

namespace Spec

open EDB (Byte)

/-- The readable pages. -/
abbrev PageStore := Nat → Option (List Byte)

/-- Writing a page changes this page only. -/
def PageStore.write (s : PageStore) (n : Nat) (bs : List Byte) : PageStore := fun m => if m = n then some bs else s m

/-- What a read request answers: the buffer afterwards and success; a failing read leaves the buffer alone. -/
def PageStore.read (s : PageStore) (n : Nat) (buf : List Byte) : List Byte × Nat :=
  match s n with
  | some bs => (bs, 1)
  | none => (buf, 0)

/-- As `write`, but pages behind the last one (`k` is the number of pages so far) come into being with content `gap`. -/
def PageStore.writeGap (s : PageStore) (k n : Nat) (bs gap : List Byte) : PageStore := fun m =>
  if m = n then some bs else if k ≤ m ∧ m < n then some gap else s m

/-- The pages a file of bytes consists of. -/
def pagesIn (pageSize : Nat) (f : List Byte) : PageStore := fun n =>
  if (n + 1) * pageSize ≤ f.length then some ((f.drop (n * pageSize)).take pageSize) else none

end Spec
