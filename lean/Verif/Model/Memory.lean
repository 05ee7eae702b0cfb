import Verif.Spec.Memory

/-!
# Memory of the query operators and of the library's own objects

`malloc`, `calloc` and `free` as called by `advancedQueries.c`, `schema.c`, `spline.c` and `embedDB.c`.  Only the blocks
and the pointers between them are kept, not their contents (those are in `Model/Query`, `Model/Plan`, `Model/Spline`).
Simplifications: `malloc` does not fail, and the client passes non-NULL arguments.
-/

namespace EDB

open Spec (Heap Tree)

/-- `malloc`, `calloc`. -/
def malloc (h : Heap) : Heap × Nat := (⟨h.fresh + 1, h.fresh :: h.live⟩, h.fresh)

/-- `free`; `none` is NULL. -/
def free (h : Heap) : Option Nat → Res Heap
  | none => .ok h
  | some p => if p ∈ h.live then .ok { h with live := h.live.erase p } else .ub

/-- A read or write through a pointer. -/
def deref (h : Heap) : Option Nat → Res Unit
  | none => .ub
  | some p => if p ∈ h.live then .ok () else .ub

/-- A pointer to an `embedDBSchema` (schema.h:52-55): the block and its block `columnSizes`. -/
abbrev SchemaPtr := Option (Nat × Nat)

/-- Any read of a schema and its column sizes. -/
def derefSchema (h : Heap) : SchemaPtr → Res Unit
  | none => .ub
  | some (s, cs) => deref h (some s) >>= fun _ => deref h (some cs)

/-- Allocating a schema with its columns (schema.c:107-125, advancedQueries.c:261-274, 491-506, 681-696). -/
def mallocSchema (h : Heap) : Heap × SchemaPtr :=
  let (h, s) := malloc h
  let (h, cs) := malloc h
  (h, some (s, cs))

/-- `embedDBFreeSchema` (schema.c:86-91). -/
def freeSchema (h : Heap) : SchemaPtr → Res Heap
  | none => .ok h
  | some (s, cs) => do
    deref h (some s)
    let h ← free h (some cs)
    free h (some s)

/-- The fields of an `embedDBOperator` that are pointers to blocks (advancedQueries.h:87-123); `self` is the block of
the operator itself. -/
structure OpPtrs where
  self : Nat
  state : Option Nat
  schema : SchemaPtr
  buf : Option Nat

/-- The operators of a tree.  `aggregate`: `last` is `lastRecordBuffer` in the state block, `linked` tells whether
`op->input` is not NULL; the operators below are listed even when it is.  `join`: the second input is reached through the
state block. -/
inductive OpNode where
  | scan (o : OpPtrs) (fits : Bool)
  | select (o : OpPtrs) (input : OpNode)
  | project (o : OpPtrs) (input : OpNode)
  | aggregate (o : OpPtrs) (last : Option Nat) (linked : Bool) (input : OpNode)
  | join (o : OpPtrs) (keys : Bool) (input1 input2 : OpNode)

/-- The pointers of the top operator. -/
def OpNode.ptrs : OpNode → OpPtrs
  | .scan o _ => o
  | .select o _ => o
  | .project o _ => o
  | .aggregate o _ _ _ => o
  | .join o _ _ _ => o

/-- The client's calls of `createTableScanOperator` (advancedQueries.c:205-241), `createSelectionOperator` (437-465),
`createProjectionOperator` (330-359), `createAggregateOperator` (621-652) and `createKeyJoinOperator` (789-816), inputs
first. -/
def buildOps (h : Heap) : Tree → Heap × OpNode
  | .scan fits =>
    let (h, op) := malloc h
    let (h, st) := malloc h
    let (h, s) := mallocSchema h
    (h, .scan ⟨op, some st, s, none⟩ fits)
  | .select t =>
    let (h, i) := buildOps h t
    let (h, st) := malloc h
    let (h, op) := malloc h
    (h, .select ⟨op, some st, none, none⟩ i)
  | .project t =>
    let (h, i) := buildOps h t
    let (h, st) := malloc h
    let (h, op) := malloc h
    (h, .project ⟨op, some st, none, none⟩ i)
  | .aggregate t =>
    let (h, i) := buildOps h t
    let (h, st) := malloc h
    let (h, op) := malloc h
    (h, .aggregate ⟨op, some st, none, none⟩ none true i)
  | .join keys t u =>
    let (h, i) := buildOps h t
    let (h, j) := buildOps h u
    let (h, op) := malloc h
    let (h, st) := malloc h
    (h, .join ⟨op, some st, none, none⟩ keys i j)

/-- `if (p == NULL) p = malloc(..)`. -/
def ensure (h : Heap) : Option Nat → Heap × Option Nat
  | none => let (h, p) := malloc h; (h, some p)
  | some p => (h, some p)

/-- `op->init`: `initTableScan` (125-170), `initSelection` (367-393), `initProjection` (243-291), `initAggregate`
(479-536), `initKeyJoin` (659-710).  The tests of `initTableScan` on the sizes are `fits`, that of `initKeyJoin` is
`keys`. -/
def OpNode.init (h : Heap) : OpNode → Res (Heap × OpNode)
  | .scan o fits => do
    deref h (some o.self)
    if o.schema.isNone then .ok (h, .scan o fits) else
    derefSchema h o.schema
    deref h o.state
    if !fits then .ok (h, .scan o fits) else
    let (h, b) := ensure h o.buf
    .ok (h, .scan { o with buf := b } fits)
  | .select o input => do
    deref h (some o.self)
    let (h, i) ← input.init h
    let (h, s) ← (if o.schema.isNone then do
        deref h (some i.ptrs.self)
        derefSchema h i.ptrs.schema
        .ok (mallocSchema h)
      else .ok (h, o.schema) : Res (Heap × SchemaPtr))
    derefSchema h s
    let (h, b) := ensure h o.buf
    .ok (h, .select { o with schema := s, buf := b } i)
  | .project o input => do
    deref h (some o.self)
    let (h, i) ← input.init h
    deref h o.state
    deref h (some i.ptrs.self)
    let (h, s) ← (if o.schema.isNone then do
        derefSchema h i.ptrs.schema
        .ok (mallocSchema h)
      else .ok (h, o.schema) : Res (Heap × SchemaPtr))
    derefSchema h s
    let (h, b) := ensure h o.buf
    .ok (h, .project { o with schema := s, buf := b } i)
  | .aggregate o last linked input => do
    deref h (some o.self)
    if !linked then .ok (h, .aggregate o last linked input) else
    let (h, i) ← input.init h
    deref h o.state
    let (h, s) := if o.schema.isNone then mallocSchema h else (h, o.schema)
    deref h (some i.ptrs.self)
    derefSchema h i.ptrs.schema
    derefSchema h s
    let (h, b) := ensure h o.buf
    let (h, l) := ensure h last
    .ok (h, .aggregate { o with schema := s, buf := b } l linked i)
  | .join o keys input1 input2 => do
    deref h (some o.self)
    deref h o.state
    let (h, i) ← input1.init h
    let (h, j) ← input2.init h
    deref h (some i.ptrs.self)
    deref h (some j.ptrs.self)
    derefSchema h i.ptrs.schema
    derefSchema h j.ptrs.schema
    if !keys then .ok (h, .join o keys i j) else
    let (h, s) := if o.schema.isNone then mallocSchema h else (h, o.schema)
    derefSchema h s
    let (h, b) := malloc h
    .ok (h, .join { o with schema := s, buf := some b } keys i j)

/-- Every access of a call of `op->next`, whichever branches it takes and however often it loops: `nextTableScan`
(172-189), `nextSelection` (395-418), `nextProjection` (293-312), `nextAggregate` (538-601), `nextKeyJoin` (712-770).  They
neither allocate nor free. -/
def OpNode.next (h : Heap) : OpNode → Res Unit
  | .scan o _ => do
    deref h (some o.self)
    derefSchema h o.schema
    deref h o.state
    deref h o.buf
  | .select o input => do
    deref h (some o.self)
    deref h (some input.ptrs.self)
    deref h o.state
    derefSchema h input.ptrs.schema
    input.next h
    deref h input.ptrs.buf
    derefSchema h o.schema
    deref h o.buf
  | .project o input => do
    deref h (some o.self)
    deref h (some input.ptrs.self)
    deref h o.state
    derefSchema h input.ptrs.schema
    input.next h
    deref h input.ptrs.buf
    deref h o.buf
  | .aggregate o last linked input => do
    deref h (some o.self)
    deref h o.state
    if !linked then .ub else
    deref h (some input.ptrs.self)
    derefSchema h input.ptrs.schema
    input.next h
    deref h input.ptrs.buf
    deref h last
    derefSchema h o.schema
    deref h o.buf
  | .join o _ input1 input2 => do
    deref h (some o.self)
    deref h o.state
    deref h (some input1.ptrs.self)
    deref h (some input2.ptrs.self)
    derefSchema h input1.ptrs.schema
    derefSchema h input2.ptrs.schema
    input1.next h
    input2.next h
    deref h input1.ptrs.buf
    deref h input2.ptrs.buf
    deref h o.buf

/-- `op->close`: `closeTableScan` (191-197), `closeSelection` (420-428), `closeProjection` (314-322), `closeAggregate`
(603-612), `closeKeyJoin` (772-784). -/
def OpNode.close (h : Heap) : OpNode → Res (Heap × OpNode)
  | .scan o fits => do
    deref h (some o.self)
    let h ← freeSchema h o.schema
    let h ← free h o.buf
    let h ← free h o.state
    .ok (h, .scan ⟨o.self, none, none, none⟩ fits)
  | .select o input => do
    deref h (some o.self)
    let (h, i) ← input.close h
    let h ← freeSchema h o.schema
    let h ← free h o.state
    let h ← free h o.buf
    .ok (h, .select ⟨o.self, none, none, none⟩ i)
  | .project o input => do
    deref h (some o.self)
    let (h, i) ← input.close h
    let h ← freeSchema h o.schema
    let h ← free h o.state
    let h ← free h o.buf
    .ok (h, .project ⟨o.self, none, none, none⟩ i)
  | .aggregate o last linked input => do
    deref h (some o.self)
    if !linked then .ub else
    let (h, i) ← input.close h
    let h ← freeSchema h o.schema
    deref h o.state
    let h ← free h last
    let h ← free h o.state
    let h ← free h o.buf
    .ok (h, .aggregate ⟨o.self, none, none, none⟩ none false i)
  | .join o keys input1 input2 => do
    deref h (some o.self)
    deref h o.state
    let (h, i) ← input1.close h
    let (h, j) ← input2.close h
    let h ← freeSchema h o.schema
    let h ← free h o.state
    let h ← free h o.buf
    .ok (h, .join ⟨o.self, none, none, none⟩ keys i j)

/-- The end of `embedDBFreeOperatorRecursive`, after the input (1151-1163). -/
def OpPtrs.freeAll (h : Heap) (o : OpPtrs) : Res Heap := do
  let h ← free h o.state
  let h ← freeSchema h o.schema
  let h ← free h o.buf
  free h (some o.self)

/-- `embedDBFreeOperatorRecursive` (1147-1164): follows `op->input` only. -/
def OpNode.freeRec (h : Heap) : OpNode → Res Heap
  | .scan o _ => do
    deref h (some o.self)
    o.freeAll h
  | .select o input => do
    deref h (some o.self)
    let h ← input.freeRec h
    o.freeAll h
  | .project o input => do
    deref h (some o.self)
    let h ← input.freeRec h
    o.freeAll h
  | .aggregate o _ linked input => do
    deref h (some o.self)
    let h ← if linked then input.freeRec h else .ok h
    o.freeAll h
  | .join o _ input1 _ => do
    deref h (some o.self)
    let h ← input1.freeRec h
    o.freeAll h

/-- A client that calls `free()` on each operator it has created (docs/advancedQueries.md:70). -/
def OpNode.freeEach (h : Heap) : OpNode → Res Heap
  | .scan o _ => free h (some o.self)
  | .select o input => do
    let h ← free h (some o.self)
    input.freeEach h
  | .project o input => do
    let h ← free h (some o.self)
    input.freeEach h
  | .aggregate o _ _ input => do
    let h ← free h (some o.self)
    input.freeEach h
  | .join o _ input1 input2 => do
    let h ← free h (some o.self)
    let h ← input1.freeEach h
    input2.freeEach h

/-- `op->init` called `n` times. -/
def OpNode.inits (h : Heap) (o : OpNode) : Nat → Res (Heap × OpNode)
  | 0 => .ok (h, o)
  | n + 1 => do
    let (h, o) ← o.init h
    o.inits h n

/-- `exec` called `n` times. -/
def OpNode.execs (h : Heap) (o : OpNode) : Nat → Res Unit
  | 0 => .ok ()
  | n + 1 => do
    o.next h
    o.execs h n

/-- How the client frees the operators (docs/advancedQueries.md:70). -/
inductive FreeBy where
  | recursive
  | each

/-- A client's session (docs/advancedQueries.md:58-70): create the operators, `init` them `k` times, `exec` `n` times,
`close` the top operator and free the operators. -/
def querySession (h : Heap) (t : Tree) (k n : Nat) (by_ : FreeBy) : Res Heap := do
  let (h, o) := buildOps h t
  let (h, o) ← o.inits h k
  o.execs h n
  let (h, o) ← o.close h
  match by_ with
  | .recursive => o.freeRec h
  | .each => o.freeEach h

/-! ## The database and its iterators -/

/-- The blocks of a `spline` (spline.h): the structure and the five blocks of `splineInit` (spline.c:61-67). -/
structure SplPtrs where
  self : Nat
  points : Nat
  lastKey : Nat
  lower : Nat
  upper : Nat
  first : Nat

/-- The allocation of `embedDBInit` (embedDB.c:213-223); nothing when the table uses binary search. -/
def initSpl (h : Heap) (binary : Bool) : Heap × Option SplPtrs :=
  if binary then (h, none) else
  let (h, s) := malloc h
  let (h, a) := malloc h
  let (h, b) := malloc h
  let (h, c) := malloc h
  let (h, d) := malloc h
  let (h, e) := malloc h
  (h, some ⟨s, a, b, c, d, e⟩)

/-- `embedDBInit` (embedDB.c:139-272): `ok` tells whether the steps after the spline's allocation (226-271) succeed. -/
def initDb (h : Heap) (binary ok : Bool) : Heap × Int × Option SplPtrs :=
  let (h, s) := initSpl h binary
  (h, if ok then 0 else -1, s)

/-- `embedDBClose` (embedDB.c:2341-2356) with `splineClose` (spline.c:390-396). -/
def closeDb (h : Heap) : Option SplPtrs → Res Heap
  | none => .ok h
  | some s => do
    deref h (some s.self)
    let h ← free h (some s.points)
    let h ← free h (some s.lastKey)
    let h ← free h (some s.lower)
    let h ← free h (some s.upper)
    let h ← free h (some s.first)
    free h (some s.self)

/-- The `queryBitmap` of `embedDBInitIterator` (embedDB.c:1591-1598); `bmap`: the table uses bitmaps and the iterator
has a data bound. -/
def openIt (h : Heap) (bmap : Bool) : Heap × Option Nat := if bmap then ensure h none else (h, none)

/-- `embedDBCloseIterator` (embedDB.c:1626-1630): the pointer is not reset. -/
def closeIt (h : Heap) (it : Option Nat) : Res Heap := free h it

/-- What a client does with iterators: open one, or close the `i`-th oldest open one. -/
inductive ItOp where
  | opn (bmap : Bool)
  | cls (i : Nat)

/-- A sequence of iterator calls; `its` are the open iterators. -/
def itOps (h : Heap) (its : List (Option Nat)) : List ItOp → Res (Heap × List (Option Nat))
  | [] => .ok (h, its)
  | .opn b :: ops => let (h, it) := openIt h b; itOps h (its ++ [it]) ops
  | .cls i :: ops => do
    match its[i]? with
    | none => itOps h its ops
    | some it =>
      let h ← closeIt h it
      itOps h (its.eraseIdx i) ops

/-- Closing the remaining iterators. -/
def closeIts (h : Heap) : List (Option Nat) → Res Heap
  | [] => .ok h
  | it :: its => do
    let h ← closeIt h it
    closeIts h its

/-- A client's use of a database: `embedDBInit`, iterators opened and closed, `embedDBClose`. -/
def dbSession (h : Heap) (binary ok : Bool) (ops : List ItOp) : Res Heap :=
  match initDb h binary ok with
  | (h, r, s) => if r ≠ 0 then .ok h else do
    let (h, its) ← itOps h [] ops
    let h ← closeIts h its
    closeDb h s

end EDB
