/-!
# Specification: variable data in a file

What the bytes of a variable data file say about the data stored at an address, read off without the library.
-/

namespace Spec

/-- The byte at address `a` of a file of `n` pages of `ps` bytes, if its page has been written. -/
def byteAt (ps n : Nat) (file : Nat → Option (Nat → UInt8)) (a : Nat) : Option UInt8 :=
  (file (a / ps % n)).map fun p => p (a % ps)

/-- The address of the next byte of data: page headers (`hdr` bytes) are skipped. -/
def nextAddr (ps hdr a : Nat) : Nat := if (a + 1) % ps = 0 then a + 1 + hdr else a + 1

/-- `k` bytes of data from address `a` on, and the address after them. -/
def bytesFrom (ps hdr n : Nat) (file : Nat → Option (Nat → UInt8)) : Nat → Nat → Option (List UInt8 × Nat)
  | 0, a => some ([], a)
  | k + 1, a =>
    match byteAt ps n file a, bytesFrom ps hdr n file k (nextAddr ps hdr a) with
    | some b, some (bs, a') => some (b :: bs, a')
    | _, _ => none

/-- Value of little-endian bytes. -/
def leValue (bs : List UInt8) : Nat := bs.foldr (fun b m => b.toNat + 256 * m) 0

/-- The variable data at address `a`: a four-byte length, then that many bytes. -/
def fetch (ps hdr n : Nat) (file : Nat → Option (Nat → UInt8)) (a : Nat) : Option (List UInt8) :=
  match bytesFrom ps hdr n file 4 a with
  | some (len, a') => (bytesFrom ps hdr n file (leValue len) a').map (·.1)
  | none => none

end Spec
