/-!
# Specification: a bounded append-only log of pages

What a client of the library is promised, without any storage layout: records go to a buffer, full buffers become
pages, pages are numbered from 0, and once more than `N` pages exist the oldest pages are dropped `B` at a time.
-/

namespace Spec

/-- A record: key and data bytes. -/
abbrev Rec := Nat × List UInt8

/-- The whole history of a table: all pages ever completed (oldest first) and the records not yet in a page. -/
structure Log where
  pages : List (List Rec)
  buf : List Rec

namespace Log

/-- The empty table. -/
def empty : Log := ⟨[], []⟩

/-- All records ever inserted, in order. -/
def all (l : Log) : List Rec := l.pages.flatten ++ l.buf

/-- Insert a record; pages hold `cap` records. -/
def put (cap : Nat) (l : Log) (r : Rec) : Log :=
  if l.buf.length ≥ cap then ⟨l.pages ++ [l.buf], [r]⟩ else ⟨l.pages, l.buf ++ [r]⟩

/-- Complete the current page, if it has any record. -/
def flush (l : Log) : Log :=
  if l.buf = [] then l else ⟨l.pages ++ [l.buf], []⟩

/-- The records still retained when pages below `m` have been dropped. -/
def live (l : Log) (m : Nat) : List Rec := (l.pages.drop m).flatten ++ l.buf

end Log

/-- Number of pages dropped after `total` pages were completed: none while they fit, then as few whole blocks of
`B` pages as possible so that at most `N` remain. -/
def dropped (N B total : Nat) : Nat := if total ≤ N then 0 else B * ((total - N + B - 1) / B)

/-- Result of a lookup among the given records. -/
def lookup (rs : List Rec) (k : Nat) : Option (List UInt8) := (rs.find? fun r => r.1 == k).map (·.2)

end Spec
