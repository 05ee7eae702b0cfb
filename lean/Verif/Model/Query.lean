import Verif.Model.Utility

/-!
# Model of `src/query-interface/schema.c` and `src/query-interface/advancedQueries.c`

Records are byte lists.  A schema is the list of its `columnSizes` (an `int8_t` each, negative = signed).

An operator has a private state (which includes its `recordBuffer`) and a `next`, which also sees and changes the
outside world `W` (the database states, whose read buffers are shared by all operators reading the same table).
The C loops `while (input->next(input))` have no static bound; the model gives each operator a loop bound `F` and
the theorems hold for every bound larger than the number of input rows.

Not modelled: allocation failures, `init`/`close` bookkeeping (schemas and buffers are taken as initialised),
`printSchema`, the floating point division of the AVG aggregate, `EMBEDDB` state's own schema validation messages.
-/

namespace EDB

/-! ## Schemas -/

abbrev Schema := List Int

/-- schema.c:53-81 `embedDBCreateSchema` on (size, signed?) pairs: `none` = NULL.  The test is on a `uint8_t`, so
only 0 is rejected. `-colSizes[i]` is stored in an `int8_t`. -/
def createSchema : List (Int × Bool) → Option Schema
  | [] => some []
  | (size, signed) :: cols =>
    if size = 0 then none
    else match createSchema cols with
      | none => none
      | some s => some ((if signed then (if size = -128 then -128 else -size) else size) :: s)

/-- schema.c:130-136 `getColOffsetFromSchema` (a `uint16_t`). -/
def colOffset (s : Schema) (col : Nat) : Nat := ((s.take col).foldl (fun pos c => pos + c.natAbs) 0) % 2 ^ 16

/-- schema.c:141-147 `getRecordSizeFromSchema`; also schema.c:96-102 (a `uint16_t`). -/
def recordSize (s : Schema) : Nat := (s.foldl (fun size c => size + c.natAbs) 0) % 2 ^ 16

/-- The bytes of one column of a record. -/
def column (s : Schema) (rec : List Byte) (col : Nat) : List Byte :=
  (rec.drop (colOffset s col)).take (s.getD col 0).natAbs

/-! ## Comparison -/

/-- advancedQueries.c:47-62 `compareUnsignedNumbers` (the loop also of 82-91); `n` bytes remain. -/
def cmpBytes (a b : List Byte) : Nat → Int
  | 0 => 0
  | i + 1 =>
    if a.getD i 0 < b.getD i 0 then -1
    else if a.getD i 0 > b.getD i 0 then 1
    else cmpBytes a b i

/-- advancedQueries.c:47-62. -/
def compareUnsigned (a b : List Byte) (n : Nat) : Int := cmpBytes a b n

/-- advancedQueries.c:67-92 `compareSignedNumbers`. -/
def compareSigned (a b : List Byte) (n : Nat) : Int :=
  let sign1 := a.getD (n - 1) 0 &&& 0x80
  let sign2 := b.getD (n - 1) 0 &&& 0x80
  if sign1 ≠ sign2 then (if sign1 ≠ 0 then -1 else 1)
  else cmpBytes a b n

/-- advancedQueries.h:46-51 and advancedQueries.c:97-115 `compare`. -/
def compare (a : List Byte) (op : Nat) (b : List Byte) (isSigned : Bool) (n : Nat) : Bool :=
  let r := if isSigned then compareSigned a b n else compareUnsigned a b n
  match op with
  | 0 => decide (r > 0)
  | 1 => decide (r < 0)
  | 2 => decide (r ≥ 0)
  | 3 => decide (r ≤ 0)
  | 4 => decide (r = 0)
  | 5 => decide (r ≠ 0)
  | _ => false

/-! ## Operators -/

/-- advancedQueries.h:84-122 `embedDBOperator`.  `buf` is its `recordBuffer`; `start` its state after `init`. -/
structure Oper (W : Type) where
  σ : Type
  schema : Schema
  start : σ
  next : W → σ → Res (W × σ × Bool)
  buf : σ → List Byte

/-- advancedQueries.c:409-417: the loop of `nextSelection`. -/
def selLoop {W : Type} (inp : Oper W) (col op : Nat) (val : List Byte) :
    Nat → W → inp.σ → List Byte → Res (W × (inp.σ × List Byte) × Bool)
  | 0, _, _, _ => .fuel
  | f + 1, w, s, buf => do
    let (w, s, got) ← inp.next w s
    if got then
      let c := inp.schema.getD col 0
      if compare ((inp.buf s).drop (colOffset inp.schema col)) op val (decide (c < 0)) c.natAbs then
        .ok (w, (s, (inp.buf s).take (recordSize inp.schema)), true)
      else selLoop inp col op val f w s buf
    else .ok (w, (s, buf), false)

/-- advancedQueries.c:367-465: selection.  A column number outside the schema reads past `columnSizes`. -/
def selection {W : Type} (F : Nat) (inp : Oper W) (col op : Nat) (val : List Byte) : Oper W where
  σ := inp.σ × List Byte
  schema := inp.schema
  start := (inp.start, List.replicate (recordSize inp.schema) 0)
  next w s := if col < inp.schema.length then selLoop inp col op val F w s.1 s.2 else .ub
  buf s := s.2

/-- `memcpy(buf + off, bs, |bs|)` on a record buffer. -/
def putBytes (buf : List Byte) (off : Nat) (bs : List Byte) : List Byte :=
  buf.take off ++ bs ++ buf.drop (off + bs.length)

/-- advancedQueries.c:300-307: copy the chosen columns to `curColPos` onwards. -/
def projCopy (s : Schema) (rec : List Byte) : List Nat → Nat → List Byte → List Byte
  | [], _, out => out
  | col :: cols, pos, out => projCopy s rec cols (pos + (s.getD col 0).natAbs) (putBytes out pos (column s rec col))

/-- advancedQueries.c:243-359: projection. -/
def projection {W : Type} (inp : Oper W) (cols : List Nat) : Oper W where
  σ := inp.σ × List Byte
  schema := cols.map fun c => inp.schema.getD c 0
  start := (inp.start, List.replicate (recordSize (cols.map fun c => inp.schema.getD c 0)) 0)
  next w s :=
    if ∀ c ∈ cols, c < inp.schema.length then do
      let (w, i, got) ← inp.next w s.1
      if got then .ok (w, (i, projCopy inp.schema (inp.buf i) cols 0 s.2), true)
      else .ok (w, (i, s.2), false)
    else .ub
  buf s := s.2

/-- advancedQueries.h:53-82 `embedDBAggregateFunc`; `A` is the type of its state.
Simplification: `compute` returns the bytes to store instead of storing them itself; the operator stores them at the
offset of the function's output column, which is what every supplied `compute` does. -/
structure Agg (A : Type) where
  reset : A → A
  add : A → List Byte → Res A
  out : A → List Byte → List Byte
  /-- signed width of the output column -/
  colSize : Int

/-- advancedQueries.c:554-558, 566-570: feed one record to every function. -/
def addAll {A : Type} : List (Agg A) → List A → List Byte → Res (List A)
  | f :: fs, a :: as, r => do
    let a ← f.add a r
    let as ← addAll fs as r
    .ok (a :: as)
  | _, _, _ => .ok []

/-- advancedQueries.c:591-595: `compute` of every function into its column of the output record. -/
def computeAll {A : Type} (schema : Schema) : List (Agg A) → List A → Nat → List Byte → List Byte → List Byte
  | f :: fs, a :: as, i, last, out => computeAll schema fs as (i + 1) last (putBytes out (colOffset schema i) (f.out a last))
  | _, _, _, _, out => out

/-- State of the aggregate operator (advancedQueries.c:470-477). -/
structure AggSt (S A : Type) where
  inp : S
  fns : List A
  last : List Byte
  usable : Bool
  buf : List Byte

/-- advancedQueries.c:562-579: the read loop; result: `recordsInGroup`, `exitType`. -/
def aggLoop {W A : Type} (inp : Oper W) (fs : List (Agg A)) (grp : List Byte → List Byte → Bool) :
    Nat → W → AggSt inp.σ A → Bool → Res (W × AggSt inp.σ A × Bool × Bool)
  | 0, _, _, _ => .fuel
  | f + 1, w, s, any => do
    let (w, i, got) ← inp.next w s.inp
    let s := { s with inp := i }
    if got then
      if !s.usable || grp s.last (inp.buf i) then do
        let as ← addAll fs s.fns (inp.buf i)
        aggLoop inp fs grp f w
          { s with fns := as, last := (inp.buf i).take (recordSize inp.schema), usable := true } true
      else .ok (w, s, any, true)
    else .ok (w, s, any, false)

/-- advancedQueries.c:538-601 `nextAggregate`. -/
def aggNext {W A : Type} (F : Nat) (inp : Oper W) (fs : List (Agg A)) (grp : List Byte → List Byte → Bool)
    (w : W) (s : AggSt inp.σ A) : Res (W × AggSt inp.σ A × Bool) := do
  let s := { s with fns := List.zipWith (fun (f : Agg A) a => f.reset a) fs s.fns }
  let s ← if s.usable then do
      let as ← addAll fs s.fns s.last
      .ok { s with fns := as }
    else .ok s
  let (w, s, any, exit) ← aggLoop inp fs grp F w s s.usable
  if any then
    let s := if exit then s else { s with usable := false }
    let s := { s with buf := computeAll (fs.map Agg.colSize) fs s.fns 0 s.last s.buf }
    .ok (w, { s with last := (inp.buf s.inp).take (recordSize inp.schema) }, true)
  else .ok (w, s, false)

/-- advancedQueries.c:479-652: aggregation; `as` are the functions' initial states. -/
def aggregate {W A : Type} (F : Nat) (inp : Oper W) (fs : List (Agg A)) (as : List A)
    (grp : List Byte → List Byte → Bool) : Oper W where
  σ := AggSt inp.σ A
  schema := fs.map Agg.colSize
  start := { inp := inp.start, fns := as, last := [], usable := false,
             buf := List.replicate (recordSize (fs.map Agg.colSize)) 0 }
  next := aggNext F inp fs grp
  buf s := s.buf

/-- State of the join operator (advancedQueries.c:654-657). -/
structure JoinSt (S T : Type) where
  one : S
  two : T
  first : Bool
  buf : List Byte

/-- advancedQueries.c:757-765: compare the two current records; on a match copy both out. -/
def joinMatch {W : Type} (a b : Oper W) (s : JoinSt a.σ b.σ) : Option (JoinSt a.σ b.σ) :=
  let n := (a.schema.getD 0 0).natAbs
  if compareUnsigned (a.buf s.one) (b.buf s.two) n = 0 then
    some { s with buf := (a.buf s.one).take (recordSize a.schema) ++ (b.buf s.two).take (recordSize b.schema) }
  else none

/-- advancedQueries.c:735-767: the loop of `nextKeyJoin`, from its top. -/
def joinLoop {W : Type} (a b : Oper W) : Nat → W → JoinSt a.σ b.σ → Res (W × JoinSt a.σ b.σ × Bool)
  | 0, _, _ => .fuel
  | f + 1, w, s => do
    let n := (a.schema.getD 0 0).natAbs
    let c := compareUnsigned (a.buf s.one) (b.buf s.two) n
    let check (w : W) (s : JoinSt a.σ b.σ) : Res (W × JoinSt a.σ b.σ × Bool) :=
      match joinMatch a b s with
      | some s => .ok (w, s, true)
      | none => joinLoop a b f w s
    if c = 0 then
      let (w, s1, g1) ← a.next w s.one
      if g1 then
        let (w, s2, g2) ← b.next w s.two
        let s := { s with one := s1, two := s2 }
        if g2 then check w s else .ok (w, s, false)
      else .ok (w, { s with one := s1 }, false)
    else if c < 0 then
      let (w, s1, g1) ← a.next w s.one
      let s := { s with one := s1 }
      if g1 then check w s else .ok (w, s, false)
    else
      let (w, s2, g2) ← b.next w s.two
      let s := { s with two := s2 }
      if g2 then check w s else .ok (w, s, false)

/-- advancedQueries.c:712-770 `nextKeyJoin`. -/
def joinNext {W : Type} (F : Nat) (a b : Oper W) (w : W) (s : JoinSt a.σ b.σ) : Res (W × JoinSt a.σ b.σ × Bool) :=
  if s.first then do
    let s := { s with first := false }
    let (w, s1, g1) ← a.next w s.one
    if g1 then
      let (w, s2, g2) ← b.next w s.two
      let s := { s with one := s1, two := s2 }
      if g2 then
        match joinMatch a b s with
        | some s => .ok (w, s, true)
        | none => joinLoop a b F w s
      else .ok (w, s, false)
    else .ok (w, { s with one := s1 }, false)
  else joinLoop a b F w s

/-- advancedQueries.c:659-816: key equijoin.  Simplification: the check at 672 that both key columns have the same
unsigned width is a hypothesis of the theorems (C only prints an error and leaves the operator unusable); the sum of
the column counts is assumed to fit the `uint8_t numCols`.  `g` is the content of the `malloc`ed record buffer. -/
def keyJoin {W : Type} (F : Nat) (a b : Oper W) (g : List Byte) : Oper W where
  σ := JoinSt a.σ b.σ
  schema := a.schema ++ b.schema
  start := { one := a.start, two := b.start, first := true, buf := g }
  next := joinNext F a b
  buf s := s.buf

/-! ## Supplied aggregate functions -/

/-- State of the supplied aggregate functions. -/
inductive AggState where
  /-- count: a `uint32_t` -/
  | cnt (n : Nat)
  /-- sum: the `int64_t`/`uint64_t` cell, as its unsigned value -/
  | sum (v : Nat)
  /-- avg: `count` (a `uint32_t`) and `sum` (as for sum) -/
  | avg (n v : Nat)
  /-- min/max: the `current` value -/
  | mm (cur : List Byte)
  deriving DecidableEq

/-- advancedQueries.c:818-842: COUNT. -/
def countAgg : Agg AggState where
  reset _ := .cnt 0
  add
    | .cnt n, _ => .ok (.cnt ((n + 1) % 2 ^ 32))
    | _, _ => .ub
  out
    | .cnt n, _ => leBytes 4 n
    | _, _ => []
  colSize := 4

/-- The value of a 64-bit cell read as `int64_t`. -/
def asInt64 (v : Nat) : Int := if v < 2 ^ 63 then v else (v : Int) - 2 ^ 64

/-- advancedQueries.c:853-874 `sumAdd`.  `128 << ((colSize - 1) * 8)` is a 32-bit `int` shift: by 24 it gives INT_MIN
(gcc), by 32 or more it is undefined behaviour.  Signed overflow of the sum is undefined behaviour.
`colSize` is capped to 8 bytes. -/
def sumAdd (schema : Schema) (col : Nat) (v : Nat) (rec : List Byte) : Res Nat :=
  let c := schema.getD col 0
  let n := min c.natAbs 8
  let bytes := (rec.drop (colOffset schema col)).take n
  if c < 0 then
    if n ≥ 5 then .ub
    else
      let val := leInt bytes
      let sum := asInt64 v + val
      if fits 64 sum then .ok (sum % 2 ^ 64).toNat else .ub
  else .ok ((v + leNat bytes) % 2 ^ 64)

/-- advancedQueries.c:844-894: SUM. -/
def sumAgg (schema : Schema) (col : Nat) : Agg AggState where
  reset _ := .sum 0
  add
    | .sum v, r => if col < schema.length then do
        let v ← sumAdd schema col v r
        .ok (.sum v)
      else .ub
    | _, _ => .ub
  out
    | .sum v, _ => leBytes 8 v
    | _, _ => []
  colSize := -8

/-- advancedQueries.c:909-915: the largest value of a column type. -/
def maxOf (c : Int) : List Byte :=
  List.replicate (c.natAbs - 1) 0xff ++ [if c < 0 then 0x7f else 0xff]

/-- advancedQueries.c:979-985: the smallest value of a column type. -/
def minOf (c : Int) : List Byte :=
  List.replicate (c.natAbs - 1) 0 ++ [if c < 0 then 0x80 else 0]

/-- advancedQueries.c:901-969: MIN (`createMinAggregate(col, colSize)` with the column's own size; another size
overflows the heap buffer or is meaningless and is undefined behaviour here). -/
def minAgg (schema : Schema) (col : Nat) : Agg AggState where
  reset _ := .mm (maxOf (schema.getD col 0))
  add
    | .mm cur, r => if col < schema.length then
        let c := schema.getD col 0
        let new := (r.drop (colOffset schema col)).take c.natAbs
        .ok (.mm (if compare new 1 cur (decide (c < 0)) c.natAbs then new else cur))
      else .ub
    | _, _ => .ub
  out
    | .mm cur, _ => cur
    | _, _ => []
  colSize := schema.getD col 0

/-- advancedQueries.c:971-1034: MAX. -/
def maxAgg (schema : Schema) (col : Nat) : Agg AggState where
  reset _ := .mm (minOf (schema.getD col 0))
  add
    | .mm cur, r => if col < schema.length then
        let c := schema.getD col 0
        let new := (r.drop (colOffset schema col)).take c.natAbs
        .ok (.mm (if compare new 0 cur (decide (c < 0)) c.natAbs then new else cur))
      else .ub
    | _, _ => .ub
  out
    | .mm cur, _ => cur
    | _, _ => []
  colSize := schema.getD col 0

/-- advancedQueries.c:1124-1136: the output size chosen by `createAvgAggregate`. -/
def avgSize (outputFloatSize : Int) : Int :=
  if outputFloatSize > 8 ∨ (outputFloatSize < 8 ∧ outputFloatSize > 4) then 8
  else if outputFloatSize < 4 then 4
  else outputFloatSize

/-- advancedQueries.c:1043-1141: AVG.  `avgAdd` treats the value as `sumAdd` does (1055-1079).  `avgCompute` (1081-1100)
divides the sum, read as `int64_t` or `uint64_t` depending on the column, by the count in `double` or `float`; what the
floating-point unit makes of the two numbers is the parameter `quot` (the bits of the quotient; Model/Avg says which they are). -/
def avgAgg (quot : Int → Nat → Nat) (schema : Schema) (col : Nat) (outputFloatSize : Int) : Agg AggState where
  reset _ := .avg 0 0
  add
    | .avg n v, r => if col < schema.length then do
        let v ← sumAdd schema col v r
        .ok (.avg ((n + 1) % 2 ^ 32) v)
      else .ub
    | _, _ => .ub
  out
    | .avg n v, _ => leBytes (avgSize outputFloatSize).natAbs (quot (if schema.getD col 0 < 0 then asInt64 v else v) n)
    | _, _ => []
  colSize := avgSize outputFloatSize

end EDB
