import Verif.Spec.Num

/-!
# What the bytes of a data page mean

Independent reading of a page image, from the documented layout only: bytes 0-3 the page number, bytes 4-5 the
number of records (both little-endian), then `hdr - 6` bytes of optional header, then the records, each
`keySize` bytes of key, `dataSize` bytes of data and possibly more, `recSize` bytes apart.
-/

namespace Spec

/-- Bytes `o … o+n-1` of a page image. -/
def bytes (p : Nat → UInt8) (o n : Nat) : List UInt8 := (List.range n).map fun i => p (o + i)

/-- The page number in the header. -/
def pageNo (p : Nat → UInt8) : Nat := uval (bytes p 0 4)

/-- The records of a page image: unsigned key and data bytes. -/
def pageRecs (hdr recSize keySize dataSize : Nat) (p : Nat → UInt8) : List (Nat × List UInt8) :=
  (List.range (uval (bytes p 4 2))).map fun i =>
    (uval (bytes p (hdr + i * recSize) keySize), bytes p (hdr + i * recSize + keySize) dataSize)

end Spec
