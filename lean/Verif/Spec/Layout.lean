/-!
# What appending a record to a page must do

Independent of the model: pages are byte memories.
-/

namespace Spec

/-- `new` is `old` with the record `bytes` stored in slot `n` of a record area that starts at byte `hdr`, and no other
byte of the record area changed.  Nothing is said about the header. -/
def Appended (hdr n : Nat) (old new : Nat → UInt8) (bytes : List UInt8) : Prop :=
  (∀ i, hdr ≤ i → (i < hdr + n * bytes.length ∨ hdr + (n + 1) * bytes.length ≤ i) → new i = old i) ∧
    ∀ j, (h : j < bytes.length) → new (hdr + n * bytes.length + j) = bytes[j]

/-- A header field: first byte and length. -/
abbrev Field := Nat × Nat

/-- All fields inside a header of `hdr` bytes. -/
def Inside (hdr : Nat) (fs : List Field) : Prop := ∀ f ∈ fs, f.1 + f.2 ≤ hdr

/-- No byte belongs to two fields. -/
def Disjoint (fs : List Field) : Prop := fs.Pairwise fun f g => f.1 + f.2 ≤ g.1 ∨ g.1 + g.2 ≤ f.1

/-- The header fields embedDB.h:76-97 defines, for the given sizes and features: page id, record count, bitmap (`bmap`),
and smallest and largest key and data (`maxMin`). -/
def headerFields (key data bm : Nat) (bmap maxMin : Bool) : List Field :=
  [(0, 4), (4, 2)] ++ (if bmap then [(6, bm)] else []) ++
    (if maxMin then [(14, key), (14 + key, key), (14 + key * 2, data), (14 + key * 2 + data, data)] else [])

end Spec
