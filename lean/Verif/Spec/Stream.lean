import Verif.Model.Query

/-!
# Specification: the rows an operator produces

`I` describes the worlds (database states) in which the operator is used; other operators may move the world
around inside `I` between two calls.
-/

namespace EDB

variable {W : Type}

/-- The next call returns 0. -/
def Ends (I : W → Prop) (op : Oper W) (s : op.σ) : Prop :=
  ∀ w, I w → ∃ w' s', op.next w s = .ok (w', s', false) ∧ I w'

/-- This and every later call returns 0. -/
def EndsForever (I : W → Prop) (op : Oper W) (s : op.σ) : Prop :=
  ∃ P : op.σ → Prop, P s ∧ ∀ s, P s → ∀ w, I w → ∃ w' s', op.next w s = .ok (w', s', false) ∧ I w' ∧ P s'

/-- As `EndsForever`, and the record buffer keeps the last row. -/
def EndsClean (I : W → Prop) (op : Oper W) (s : op.σ) : Prop :=
  ∃ P : op.σ → Prop, P s ∧
    ∀ s, P s → ∀ w, I w → ∃ w' s', op.next w s = .ok (w', s', false) ∧ I w' ∧ P s' ∧ op.buf s' = op.buf s

/-- Successive calls return 1 with exactly `rows` in the record buffer, and then the operator ends as `E` says. -/
def YieldsThen (I : W → Prop) (op : Oper W) (E : op.σ → Prop) : List (List Byte) → op.σ → Prop
  | [], s => E s
  | r :: rs, s => ∀ w, I w → ∃ w' s', op.next w s = .ok (w', s', true) ∧ I w' ∧ op.buf s' = r ∧ YieldsThen I op E rs s'

/-- Produces exactly `rows`, then returns 0. -/
def Yields (I : W → Prop) (op : Oper W) (rows : List (List Byte)) (s : op.σ) : Prop :=
  YieldsThen I op (Ends I op) rows s

/-- Produces exactly `rows`, then returns 0 for ever. -/
def YieldsForever (I : W → Prop) (op : Oper W) (rows : List (List Byte)) (s : op.σ) : Prop :=
  YieldsThen I op (EndsForever I op) rows s

/-- Produces exactly `rows`, then returns 0 for ever without touching its record buffer. -/
def YieldsClean (I : W → Prop) (op : Oper W) (rows : List (List Byte)) (s : op.σ) : Prop :=
  YieldsThen I op (EndsClean I op) rows s

/-- A client's loop `while (exec(op)) use(op->recordBuffer)`, at most `n` calls: the rows seen and whether the
end was reached. -/
def drain (op : Oper W) : Nat → W → op.σ → Res (W × op.σ × List (List Byte) × Bool)
  | 0, w, s => .ok (w, s, [], false)
  | n + 1, w, s => do
    let (w, s, got) ← op.next w s
    if got then
      let r := op.buf s
      let (w, s, rows, fin) ← drain op n w s
      .ok (w, s, r :: rows, fin)
    else .ok (w, s, [], true)

end EDB

/-! ## What one aggregate function should produce for one group -/

namespace EDB

/-- The state of an aggregate function after it was fed `rows`, each once and in order. -/
def feed {A : Type} (f : Agg A) : A → List (List Byte) → Res A
  | a, [] => .ok a
  | a, r :: rs => do
    let a ← f.add a r
    feed f a rs

/-- The output column of `f` for a group: reset, feed the group's rows once each in order, compute. -/
def aggOut {A : Type} (a0 : A) (f : Agg A) (g : List (List Byte)) : List Byte :=
  match feed f (f.reset a0) g with
  | .ok v => f.out v (g.getLast?.getD [])
  | _ => []

/-- The output row for a group: one column per function. -/
def aggRow {A : Type} (a0 : A) (fs : List (Agg A)) (g : List (List Byte)) : List Byte :=
  (fs.map fun f => aggOut a0 f g).flatten

end EDB

namespace EDB

/-- An operator that produces a fixed list of rows (used for examples). -/
def ofRows (W : Type) (schema : Schema) (rows : List (List Byte)) : Oper W where
  σ := List (List Byte) × List Byte
  schema := schema
  start := (rows, [])
  next w s := match s.1 with
    | [] => .ok (w, s, false)
    | r :: rs => .ok (w, (rs, r), true)
  buf s := s.2

end EDB
