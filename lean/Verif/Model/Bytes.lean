/-!
# Bytes, pages and outcomes

Memory model shared by every part of the EmbedDB model.

* A page buffer is a byte-addressed memory `Nat → UInt8`; C's `memcpy` at an offset is `wr`, reading
  `n` bytes at an offset is `rd`.  Only offsets `< pageSize` are meaningful; the model functions that could
  leave that range either are proved not to or return `Res.ub`.
* Integers stored in memory are little-endian (every platform EmbedDB targets is), `leNat` / `leBytes`.
* `Res` separates a normal result from C undefined behaviour (`ub`) and from a loop that did not finish
  within the model's loop bound (`fuel`; every property theorem shows this never happens).
-/

namespace EDB

abbrev Byte := UInt8

/-- A page buffer (embedDB.h: `void *buffer`, one `pageSize` slice of it). -/
abbrev Page := Nat → Byte

/-- Outcome of a model function. -/
inductive Res (α : Type) where
  /-- the C function returned -/
  | ok (a : α)
  /-- the C function's behaviour is undefined (e.g. wild pointer, missing return value, out-of-page write) -/
  | ub
  /-- the model's loop bound was exhausted (the C loop may run forever) -/
  | fuel
  deriving DecidableEq

namespace Res

/-- Sequencing. -/
def bind {α β : Type} (x : Res α) (f : α → Res β) : Res β :=
  match x with
  | ok a => f a
  | ub => ub
  | fuel => fuel

instance : Monad Res where
  pure := ok
  bind := bind

@[simp] theorem pure_eq {α : Type} (a : α) : (pure a : Res α) = ok a := rfl
@[simp] theorem ok_bind {α β : Type} (a : α) (f : α → Res β) : (ok a >>= f) = f a := rfl
@[simp] theorem ub_bind {α β : Type} (f : α → Res β) : ((ub : Res α) >>= f) = ub := rfl
@[simp] theorem fuel_bind {α β : Type} (f : α → Res β) : ((fuel : Res α) >>= f) = fuel := rfl

/-- Is this a normal return? -/
def isOk {α : Type} : Res α → Bool
  | ok _ => true
  | _ => false

/-- Is this undefined behaviour? -/
def isUb {α : Type} : Res α → Bool
  | ub => true
  | _ => false

/-- The value returned, if any. -/
def toOption {α : Type} : Res α → Option α
  | ok a => some a
  | _ => none

end Res

/-- `memcpy(dst, p + off, n)`: the `n` bytes at `off`. -/
def rd (p : Page) (off n : Nat) : List Byte := (List.range n).map fun i => p (off + i)

/-- `memcpy(p + off, bs, |bs|)`. -/
def wr (p : Page) (off : Nat) (bs : List Byte) : Page :=
  fun i => if off ≤ i ∧ i < off + bs.length then bs.getD (i - off) 0 else p i

/-- Value of a little-endian unsigned integer (a C unsigned integer that was zero-initialised and then
`memcpy`'d from these bytes). -/
def leNat : List Byte → Nat
  | [] => 0
  | b :: bs => b.toNat + 256 * leNat bs

/-- The `n` low bytes of `v`, little-endian (the bytes `memcpy` copies out of a C unsigned integer). -/
def leBytes : Nat → Nat → List Byte
  | 0, _ => []
  | n + 1, v => UInt8.ofNat v :: leBytes n (v / 256)

end EDB
