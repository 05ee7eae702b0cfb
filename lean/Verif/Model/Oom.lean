import Verif.Model.Memory

/-!
# The query operators when memory runs out

As `Model/Memory`, but each request for memory may fail.  Not modelled: the client's own objects (iterators, aggregate
functions, the schema passed to `createTableScanOperator`), which are taken to be valid.  Numbers of columns are taken to
be positive.
-/

namespace EDB

open Spec (Heap Tree)

/-- The heap, the number of requests made so far, and which requests succeed. -/
structure Mem where
  heap : Heap
  asked : Nat
  gives : Nat → Bool

/-- `malloc`, `calloc`; `none` is NULL. -/
def Mem.alloc (m : Mem) : Mem × Option Nat :=
  if m.gives m.asked then ({ m with heap := (malloc m.heap).1, asked := m.asked + 1 }, some (malloc m.heap).2)
  else ({ m with asked := m.asked + 1 }, none)

/-- A pointer to an `embedDBSchema`: the block and its pointer `columnSizes`. -/
abbrev SchemaN := Option (Nat × Option Nat)

/-- A read of `numCols`. -/
def derefN (h : Heap) : SchemaN → Res Unit
  | none => .ub
  | some (s, _) => deref h (some s)

/-- A read of the column sizes. -/
def derefS (h : Heap) : SchemaN → Res Unit
  | none => .ub
  | some (s, cs) => deref h (some s) >>= fun _ => deref h cs

/-- `embedDBFreeSchema` (schema.c:86-91). -/
def freeS (h : Heap) : SchemaN → Res Heap
  | none => .ok h
  | some (s, cs) => do
    deref h (some s)
    let h ← free h cs
    free h (some s)

/-- `copySchema` (schema.c:107-125). -/
def copySchemaN (m : Mem) (src : SchemaN) : Res (Mem × SchemaN) :=
  match m.alloc with
  | (m, none) => .ok (m, none)
  | (m, some s) => do
    derefN m.heap src
    match m.alloc with
    | (m, none) => .ok (m, none)
    | (m, some cs) => do
      derefS m.heap src
      .ok (m, some (s, some cs))

/-- As `OpPtrs`. -/
structure OpPtrsN where
  self : Nat
  state : Option Nat
  schema : SchemaN
  buf : Option Nat

/-- As `OpNode`. -/
inductive OpNodeN where
  | scan (o : OpPtrsN) (fits : Bool)
  | select (o : OpPtrsN) (input : OpNodeN)
  | project (o : OpPtrsN) (input : OpNodeN)
  | aggregate (o : OpPtrsN) (last : Option Nat) (linked : Bool) (input : OpNodeN)
  | join (o : OpPtrsN) (keys : Bool) (input1 input2 : OpNodeN)

/-- The pointers of the top operator. -/
def OpNodeN.ptrs : OpNodeN → OpPtrsN
  | .scan o _ => o
  | .select o _ => o
  | .project o _ => o
  | .aggregate o _ _ _ => o
  | .join o _ _ _ => o

/-- `op->close` (as `OpNode.close`). -/
def OpNodeN.close (h : Heap) : OpNodeN → Res (Heap × OpNodeN)
  | .scan o fits => do
    deref h (some o.self)
    let h ← freeS h o.schema
    let h ← free h o.buf
    let h ← free h o.state
    .ok (h, .scan ⟨o.self, none, none, none⟩ fits)
  | .select o input => do
    deref h (some o.self)
    let (h, i) ← input.close h
    let h ← freeS h o.schema
    let h ← free h o.state
    let h ← free h o.buf
    .ok (h, .select ⟨o.self, none, none, none⟩ i)
  | .project o input => do
    deref h (some o.self)
    let (h, i) ← input.close h
    let h ← freeS h o.schema
    let h ← free h o.state
    let h ← free h o.buf
    .ok (h, .project ⟨o.self, none, none, none⟩ i)
  | .aggregate o last linked input => do
    deref h (some o.self)
    if !linked then .ub else
    let (h, i) ← input.close h
    let h ← freeS h o.schema
    deref h o.state
    let h ← free h last
    let h ← free h o.state
    let h ← free h o.buf
    .ok (h, .aggregate ⟨o.self, none, none, none⟩ none false i)
  | .join o keys input1 input2 => do
    deref h (some o.self)
    deref h o.state
    let (h, i) ← input1.close h
    let (h, j) ← input2.close h
    let h ← freeS h o.schema
    let h ← free h o.state
    let h ← free h o.buf
    .ok (h, .join ⟨o.self, none, none, none⟩ keys i j)

/-- The client calls `free()` on each operator (as `OpNode.freeEach`). -/
def OpNodeN.freeEach (h : Heap) : OpNodeN → Res Heap
  | .scan o _ => free h (some o.self)
  | .select o input => do
    let h ← free h (some o.self)
    input.freeEach h
  | .project o input => do
    let h ← free h (some o.self)
    input.freeEach h
  | .aggregate o _ _ input => do
    let h ← free h (some o.self)
    input.freeEach h
  | .join o _ input1 input2 => do
    let h ← free h (some o.self)
    let h ← input1.freeEach h
    input2.freeEach h

/-- The client closes and frees operators. -/
def OpNodeN.discard (o : OpNodeN) (m : Mem) : Res Mem := do
  let (h, o) ← o.close m.heap
  let h ← o.freeEach h
  .ok { m with heap := h }

/-- `createTableScanOperator` (advancedQueries.c:205-241); `copySchema` of the client's schema.  When the operator's block
is there but its state is not, the block is lost; when `copySchema` fails at the columns, its block is lost. -/
def createScan (m : Mem) (fits : Bool) : Mem × Option OpNodeN :=
  match m.alloc with
  | (m, none) => (m, none)
  | (m, some op) =>
    match m.alloc with
    | (m, none) => (m, none)
    | (m, some st) =>
      match m.alloc with
      | (m, none) => (m, some (.scan ⟨op, some st, none, none⟩ fits))
      | (m, some s) =>
        match m.alloc with
        | (m, none) => (m, some (.scan ⟨op, some st, none, none⟩ fits))
        | (m, some cs) => (m, some (.scan ⟨op, some st, some (s, some cs), none⟩ fits))

/-- `createSelectionOperator` (437-465), `createProjectionOperator` (330-359), `createAggregateOperator` (621-652): the
state, then the operator. -/
def createOver (m : Mem) (node : OpPtrsN → OpNodeN) : Mem × Option OpNodeN :=
  match m.alloc with
  | (m, none) => (m, none)
  | (m, some st) =>
    match m.alloc with
    | (m, none) => (m, none)
    | (m, some op) => (m, some (node ⟨op, some st, none, none⟩))

/-- `createKeyJoinOperator` (789-816): the operator, then the state. -/
def createJoin (m : Mem) (keys : Bool) (i j : OpNodeN) : Mem × Option OpNodeN :=
  match m.alloc with
  | (m, none) => (m, none)
  | (m, some op) =>
    match m.alloc with
    | (m, none) => (m, none)
    | (m, some st) => (m, some (.join ⟨op, some st, none, none⟩ keys i j))

/-- A careful client creates the operators of a tree, inputs first.  When a call returns NULL, or a scan without schema,
it closes and frees the operators it has, and gives up. -/
def buildN (m : Mem) : Tree → Res (Mem × Option OpNodeN)
  | .scan fits =>
    match createScan m fits with
    | (m, none) => .ok (m, none)
    | (m, some o) => if o.ptrs.schema.isNone then o.discard m >>= fun m => .ok (m, none) else .ok (m, some o)
  | .select t => do
    match ← buildN m t with
    | (m, none) => .ok (m, none)
    | (m, some i) =>
      match createOver m (.select · i) with
      | (m, none) => i.discard m >>= fun m => .ok (m, none)
      | (m, some o) => .ok (m, some o)
  | .project t => do
    match ← buildN m t with
    | (m, none) => .ok (m, none)
    | (m, some i) =>
      match createOver m (.project · i) with
      | (m, none) => i.discard m >>= fun m => .ok (m, none)
      | (m, some o) => .ok (m, some o)
  | .aggregate t => do
    match ← buildN m t with
    | (m, none) => .ok (m, none)
    | (m, some i) =>
      match createOver m (.aggregate · none true i) with
      | (m, none) => i.discard m >>= fun m => .ok (m, none)
      | (m, some o) => .ok (m, some o)
  | .join keys t u => do
    match ← buildN m t with
    | (m, none) => .ok (m, none)
    | (m, some i) => do
      match ← buildN m u with
      | (m, none) => i.discard m >>= fun m => .ok (m, none)
      | (m, some j) =>
        match createJoin m keys i j with
        | (m, none) => do
          let m ← i.discard m
          let m ← j.discard m
          .ok (m, none)
        | (m, some o) => .ok (m, some o)

/-- `if (op->recordBuffer == NULL) op->recordBuffer = createBufferFromSchema(op->schema)`. -/
def Mem.buffer (m : Mem) (s : SchemaN) : Option Nat → Res (Mem × Option Nat)
  | some b => .ok (m, some b)
  | none => do
    derefS m.heap s
    .ok m.alloc

/-- The schema of a projection, aggregation or join: `op->schema` and `op->schema->columnSizes` in turn (251-274, 491-506,
681-696).  The second component tells whether `init` goes on. -/
def Mem.newSchema (m : Mem) : Mem × SchemaN × Bool :=
  match m.alloc with
  | (m, none) => (m, none, false)
  | (m, some s) =>
    match m.alloc with
    | (m, none) => (m, some (s, none), false)
    | (m, some cs) => (m, some (s, some cs), true)

/-- `op->init` (as `OpNode.init`), with the returns after failing requests. -/
def OpNodeN.init (m : Mem) : OpNodeN → Res (Mem × OpNodeN)
  | .scan o fits => do
    deref m.heap (some o.self)
    if o.schema.isNone then .ok (m, .scan o fits) else
    derefS m.heap o.schema
    deref m.heap o.state
    if !fits then .ok (m, .scan o fits) else
    let (m, b) ← m.buffer o.schema o.buf
    .ok (m, .scan { o with buf := b } fits)
  | .select o input => do
    deref m.heap (some o.self)
    let (m, i) ← input.init m
    let (m, s) ← (if o.schema.isNone then do
        deref m.heap (some i.ptrs.self)
        copySchemaN m i.ptrs.schema
      else .ok (m, o.schema) : Res (Mem × SchemaN))
    let (m, b) ← m.buffer s o.buf
    .ok (m, .select { o with schema := s, buf := b } i)
  | .project o input => do
    deref m.heap (some o.self)
    let (m, i) ← input.init m
    deref m.heap o.state
    deref m.heap (some i.ptrs.self)
    let (m, s, on) ← (if o.schema.isNone then
        match m.newSchema with
        | (m, s, false) => .ok (m, s, false)
        | (m, s, true) => do
          derefS m.heap i.ptrs.schema
          .ok (m, s, true)
      else .ok (m, o.schema, true) : Res (Mem × SchemaN × Bool))
    if !on then .ok (m, .project { o with schema := s } i) else
    let (m, b) ← m.buffer s o.buf
    .ok (m, .project { o with schema := s, buf := b } i)
  | .aggregate o last linked input => do
    deref m.heap (some o.self)
    if !linked then .ok (m, .aggregate o last linked input) else
    let (m, i) ← input.init m
    deref m.heap o.state
    let (m, s, on) := if o.schema.isNone then m.newSchema else (m, o.schema, true)
    if !on then .ok (m, .aggregate { o with schema := s } last linked i) else
    deref m.heap (some i.ptrs.self)
    derefS m.heap i.ptrs.schema
    let (m, b) ← m.buffer s o.buf
    if b.isNone then .ok (m, .aggregate { o with schema := s, buf := b } last linked i) else
    match last with
    | some l => .ok (m, .aggregate { o with schema := s, buf := b } (some l) linked i)
    | none =>
      let (m, l) := m.alloc
      .ok (m, .aggregate { o with schema := s, buf := b } l linked i)
  | .join o keys input1 input2 => do
    deref m.heap (some o.self)
    deref m.heap o.state
    let (m, i) ← input1.init m
    let (m, j) ← input2.init m
    deref m.heap (some i.ptrs.self)
    deref m.heap (some j.ptrs.self)
    derefS m.heap i.ptrs.schema
    derefS m.heap j.ptrs.schema
    if !keys then .ok (m, .join o keys i j) else
    let (m, s, on) := if o.schema.isNone then m.newSchema else (m, o.schema, true)
    if !on then .ok (m, .join { o with schema := s } keys i j) else
    derefS m.heap s
    let (m, b) := m.alloc
    .ok (m, .join { o with schema := s, buf := b } keys i j)

/-- Every access of a call of `op->next` (as `OpNode.next`; `nextTableScan` returns at once without a schema). -/
def OpNodeN.next (h : Heap) : OpNodeN → Res Unit
  | .scan o _ => do
    deref h (some o.self)
    if o.schema.isNone then .ok () else
    deref h o.state
    deref h o.buf
  | .select o input => do
    deref h (some o.self)
    deref h (some input.ptrs.self)
    deref h o.state
    derefS h input.ptrs.schema
    input.next h
    deref h input.ptrs.buf
    derefS h o.schema
    deref h o.buf
  | .project o input => do
    deref h (some o.self)
    deref h (some input.ptrs.self)
    deref h o.state
    derefS h input.ptrs.schema
    input.next h
    deref h input.ptrs.buf
    deref h o.buf
  | .aggregate o last linked input => do
    deref h (some o.self)
    deref h o.state
    if !linked then .ub else
    deref h (some input.ptrs.self)
    derefS h input.ptrs.schema
    input.next h
    deref h input.ptrs.buf
    deref h last
    derefS h o.schema
    deref h o.buf
  | .join o _ input1 input2 => do
    deref h (some o.self)
    deref h o.state
    deref h (some input1.ptrs.self)
    deref h (some input2.ptrs.self)
    derefS h input1.ptrs.schema
    derefS h input2.ptrs.schema
    input1.next h
    input2.next h
    deref h input1.ptrs.buf
    deref h input2.ptrs.buf
    deref h o.buf

/-- `exec` called `n` times. -/
def OpNodeN.execs (h : Heap) (o : OpNodeN) : Nat → Res Unit
  | 0 => .ok ()
  | n + 1 => do
    o.next h
    o.execs h n

/-- What a client can see of an operator: its schema, the schema's columns and its record buffer are there. -/
def OpPtrsN.full (o : OpPtrsN) : Bool := o.schema.any (·.2.isSome) && o.buf.isSome

/-- The client looks at every operator it has created.  The buffer `lastRecordBuffer` of an aggregation is in a structure
private to advancedQueries.c. -/
def OpNodeN.ready : OpNodeN → Bool
  | .scan o _ => o.full
  | .select o i => o.full && i.ready
  | .project o i => o.full && i.ready
  | .aggregate o _ _ i => o.full && i.ready
  | .join o _ i j => o.full && i.ready && j.ready

/-- The session of a careful client: it creates the operators, calls `init` on the top one, calls `exec` `n` times if all
schemas and buffers are there, and closes and frees all operators. -/
def oomSession (m : Mem) (t : Tree) (n : Nat) : Res Mem := do
  match ← buildN m t with
  | (m, none) => .ok m
  | (m, some o) =>
    let (m, o) ← o.init m
    if o.ready then o.execs m.heap n >>= fun _ => o.discard m else o.discard m

/-- `embedDBCreateSchema` (schema.c:53-81), when the arguments are valid: neither request is checked. -/
def createSchemaN (m : Mem) : Res (Mem × SchemaN) :=
  match m.alloc with
  | (m, s) => do
    deref m.heap s
    match m.alloc with
    | (m, cs) => do
      deref m.heap cs
      .ok (m, s.map fun s => (s, cs))

/-- The spline's allocation in `embedDBInit` (embedDB.c:220-221) with `splineInit` (spline.c:54-69): only the structure is
written to; the other pointers are stored without a check. -/
def initSplN (m : Mem) : Res (Mem × Option Nat × List (Option Nat)) :=
  match m.alloc with
  | (m, s) => do
    deref m.heap s
    let (m, a) := m.alloc
    let (m, b) := m.alloc
    let (m, c) := m.alloc
    let (m, d) := m.alloc
    let (m, e) := m.alloc
    .ok (m, s, [a, b, c, d, e])

/-- The first `splineAdd` (spline.c:92-100): `memcpy(spl->points, ...)`. -/
def firstAddN (m : Mem) (s : Option Nat) (ps : List (Option Nat)) : Res Unit := do
  deref m.heap s
  deref m.heap (ps.getD 0 none)

/-- `embedDBInitIterator` (embedDB.c:1591-1598) with data bounds on a table with bitmaps: `buildBitmapFromRange` of
utilityFunctions.c writes to the bitmap. -/
def openItN (m : Mem) : Res (Mem × Option Nat) :=
  match m.alloc with
  | (m, b) => do
    deref m.heap b
    .ok (m, b)

end EDB
