import Verif.Proofs.AggFuncs
import Verif.Proofs.Join

/-!
# Properties C32–C38: schemas, comparison, selection, projection, aggregation, join

`Yields I op rows s`: in every world allowed by `I`, successive `next` calls from state `s` return 1 with exactly
`rows` in the record buffer and then return 0.  `YieldsForever`/`YieldsClean` add that later calls also return 0
(and leave the record buffer alone).
-/

namespace EDB

variable {W A : Type}

/-! ## C38 -/

/-- C38: column `k` starts at the total width of the columns before it. -/
theorem C38_offset (s : Schema) (h : Spec.width s < 2 ^ 16) (k : Nat) : colOffset s k = Spec.width (s.take k) :=
  colOffset_eq h k

/-- C38: columns are adjacent, so they do not overlap. -/
theorem C38_adjacent (s : Schema) (h : Spec.width s < 2 ^ 16) (k : Nat) (hk : k < s.length) :
    colOffset s (k + 1) = colOffset s k + (s.getD k 0).natAbs := by
  rw [colOffset_eq h, colOffset_eq h, List.take_succ_eq_append_getElem hk, width_append]
  simp [Spec.width, hk]

/-- C38: the columns fill the record. -/
theorem C38_record_size (s : Schema) (h : Spec.width s < 2 ^ 16) :
    recordSize s = Spec.width s ∧ colOffset s s.length = recordSize s := by
  rw [colOffset_eq h, recordSize_eq h, List.take_length]
  exact ⟨rfl, rfl⟩

/-- C38: the bytes addressed by offset and width are the columns of the row cut from left to right, and cutting
loses nothing. -/
theorem C38_columns (s : Schema) (h : Spec.width s < 2 ^ 16) (r : List Byte) (hr : r.length = Spec.width s) :
    (∀ k < s.length, column s r k = (Spec.columns s r).getD k []) ∧ (Spec.columns s r).flatten = r := by
  refine ⟨fun k hk => column_eq h r k hk, ?_⟩
  clear h
  induction s generalizing r with
  | nil => simp [Spec.width] at hr; simp [Spec.columns, hr]
  | cons c s ih =>
    simp only [Spec.columns, List.flatten_cons]
    rw [ih _ (by rw [List.length_drop, hr]; simp [Spec.width]), List.take_append_drop]

/-- C38: every schema the library's constructor can produce from `uint8_t`-many `int8_t` columns is narrow enough for
the 16-bit offsets. -/
theorem C38_fits (cols : List (Int × Bool)) (s : Schema) (h : createSchema cols = some s)
    (hn : cols.length ≤ 255) (hc : ∀ c ∈ cols, -128 ≤ c.1 ∧ c.1 ≤ 127) : Spec.width s < 2 ^ 16 := by
  have : ∀ (cols : List (Int × Bool)) (s : Schema), createSchema cols = some s → (∀ c ∈ cols, -128 ≤ c.1 ∧ c.1 ≤ 127) →
      Spec.width s ≤ 128 * cols.length := by
    intro cols
    induction cols with
    | nil => intro s h _; simp only [createSchema, Option.some.injEq] at h; subst h; simp [Spec.width]
    | cons c cols ih =>
      intro s h hc
      obtain ⟨size, sg⟩ := c
      simp only [createSchema] at h
      by_cases h0 : size = 0
      · rw [if_pos h0] at h; cases h
      rw [if_neg h0] at h
      cases hq : createSchema cols with
      | none => rw [hq] at h; cases h
      | some t =>
        rw [hq] at h
        simp only [Option.some.injEq] at h
        subst h
        have h1 := ih t hq (fun c hc' => hc c (by simp [hc']))
        have h2 := hc (size, sg) (by simp)
        simp only [Spec.width, List.map_cons, List.sum_cons, List.length_cons] at h1 ⊢
        simp only at h2
        have : (if sg then (if size = -128 then -128 else -size) else size : Int).natAbs ≤ 128 := by
          split_ifs <;> omega
        omega
  have := this cols s h hc
  omega

/-- C38: positive sizes are stored with the requested sign, so the width is the sum of the requested sizes. -/
theorem C38_widths (cols : List (Int × Bool)) (s : Schema) (h : createSchema cols = some s)
    (hp : ∀ c ∈ cols, 0 < c.1) : s = cols.map fun c => if c.2 then -c.1 else c.1 := by
  induction cols generalizing s with
  | nil => simp only [createSchema, Option.some.injEq] at h; subst h; rfl
  | cons c cols ih =>
    obtain ⟨size, sg⟩ := c
    simp only [createSchema] at h
    by_cases h0 : size = 0
    · rw [if_pos h0] at h; cases h
    rw [if_neg h0] at h
    cases hq : createSchema cols with
    | none => rw [hq] at h; cases h
    | some t =>
      rw [hq] at h
      simp only [Option.some.injEq] at h
      subst h
      have := hp (size, sg) (by simp)
      simp only at this
      rw [ih t hq (fun c hc => hp c (by simp [hc])), List.map_cons]
      cases sg
      · rfl
      · simp only [if_true]; rw [if_neg (by omega)]

example : createSchema [(4, false), (2, true), (8, true)] = some [4, -2, -8] ∧ Spec.width [4, -2, -8] < 2 ^ 16 ∧
    colOffset [4, -2, -8] 2 = 6 ∧ recordSize [4, -2, -8] = 14 := by decide

/-! ## C32 -/

/-- C32: `compare` applies the operator to the numbers the columns encode (`c` is the signed column width). -/
theorem C32_compare (c : Int) (a b : List Byte) (op : Spec.CmpOp) (ha : a.length = c.natAbs) (hb : b.length = c.natAbs) :
    compare a op.code b (decide (c < 0)) c.natAbs = op.holds (Spec.value c a) (Spec.value c b) := by
  rw [compare_eq a b op c (by omega) hb, List.take_of_length_le (by omega)]

/-- C32: the underlying three-way comparison of unsigned numbers. -/
theorem C32_unsigned (a b : List Byte) (h : a.length = b.length) :
    compareUnsigned a b a.length = Spec.cmp3 (Spec.uval a) (Spec.uval b) := by
  unfold compareUnsigned
  rw [cmpBytes_eq a b _ le_rfl (by omega), List.take_of_length_le le_rfl, List.take_of_length_le (by omega), uval_eq, uval_eq]

/-- C32: and of two's complement numbers. -/
theorem C32_signed (a b : List Byte) (h : a.length = b.length) (h0 : 0 < a.length) :
    compareSigned a b a.length = Spec.cmp3 (Spec.sval a) (Spec.sval b) := by
  rw [compareSigned_eq a b _ h0 le_rfl (by omega), List.take_of_length_le le_rfl, List.take_of_length_le (by omega),
    leInt_eq a h0, leInt_eq b (by omega)]

example : compare [0xfe, 0xff] Spec.CmpOp.lt.code [1, 0] (decide ((-2 : Int) < 0)) (-2 : Int).natAbs = true ∧
    Spec.value (-2) [0xfe, 0xff] = -2 ∧ Spec.value 2 [0xfe, 0xff] = 65534 := by decide

/-! ## C33 -/

theorem filter_selTest (inp : Oper W) (col : Nat) (op : Spec.CmpOp) (val : List Byte) (rows : List (List Byte))
    (hw : Spec.width inp.schema < 2 ^ 16) (hc : col < inp.schema.length) (hv : val.length = (inp.schema.getD col 0).natAbs)
    (hl : ∀ r ∈ rows, r.length = Spec.width inp.schema) :
    rows.filter (selTest inp col op.code val) = Spec.select inp.schema col op (Spec.value (inp.schema.getD col 0) val) rows := by
  unfold Spec.select
  apply List.filter_congr
  intro r hr
  unfold selTest
  have h1 := width_take_add inp.schema col hc
  rw [compare_eq _ _ op _ (by rw [List.length_drop, colOffset_eq hw, hl r hr]; omega) hv, field_bytes hw r col hc]
  rfl

/-- C33: selection yields exactly the qualifying rows in order. -/
theorem C33_selection {I : W → Prop} {inp : Oper W} {rows : List (List Byte)} (F col : Nat) (op : Spec.CmpOp) (val : List Byte)
    (hw : Spec.width inp.schema < 2 ^ 16) (hc : col < inp.schema.length) (hv : val.length = (inp.schema.getD col 0).natAbs)
    (hF : rows.length < F) (hl : ∀ r ∈ rows, r.length = Spec.width inp.schema) (hy : Yields I inp rows inp.start) :
    Yields I (selection F inp col op.code val) (Spec.select inp.schema col op (Spec.value (inp.schema.getD col 0) val) rows)
      (selection F inp col op.code val).start := by
  rw [← filter_selTest inp col op val rows hw hc hv hl]
  exact selection_once hw hc hF hl hy

/-- C33, on an input that keeps returning 0: selection also does, and never disturbs its last row. -/
theorem C33_selection_clean {I : W → Prop} {inp : Oper W} {rows : List (List Byte)} (F col : Nat) (op : Spec.CmpOp)
    (val : List Byte) (hw : Spec.width inp.schema < 2 ^ 16) (hc : col < inp.schema.length)
    (hv : val.length = (inp.schema.getD col 0).natAbs) (hF : rows.length < F)
    (hl : ∀ r ∈ rows, r.length = Spec.width inp.schema) (hy : YieldsForever I inp rows inp.start) :
    YieldsClean I (selection F inp col op.code val) (Spec.select inp.schema col op (Spec.value (inp.schema.getD col 0) val) rows)
      (selection F inp col op.code val).start := by
  rw [← filter_selTest inp col op val rows hw hc hv hl]
  exact selection_clean hw hc hF hl hy

/-- `ofRows` is such an input. -/
theorem ofRows_clean (I : W → Prop) (schema : Schema) (rows : List (List Byte)) :
    YieldsClean I (ofRows W schema rows) rows (ofRows W schema rows).start := by
  have : ∀ (l : List (List Byte)) (b : List Byte), YieldsClean I (ofRows W schema rows) l (l, b) := by
    intro l
    induction l with
    | nil =>
      intro b
      refine ⟨fun s => s.1 = [], rfl, ?_⟩
      rintro ⟨l, b⟩ hs w hi
      simp only at hs
      subst hs
      exact ⟨w, ([], b), rfl, hi, rfl, rfl⟩
    | cons r l ih =>
      intro b w hi
      exact ⟨w, (l, r), rfl, hi, rfl, ih r⟩
  exact this rows []

/-- Rows of a 2-byte unsigned key and a 1-byte signed value. -/
def exRows : List (List Byte) := [[1, 0, 5], [2, 0, 0xff], [3, 0, 0xff], [0, 1, 7], [1, 1, 0x80]]


example : Spec.select [2, -1] 1 .lt (Spec.value (-1) [0]) exRows = [[2, 0, 0xff], [3, 0, 0xff], [1, 1, 0x80]] := by decide

example : Yields (fun _ : Unit => True) (selection 6 (ofRows Unit [2, -1] exRows) 1 Spec.CmpOp.lt.code [0])
    (Spec.select [2, -1] 1 .lt (Spec.value (-1) [0]) exRows) (selection 6 (ofRows Unit [2, -1] exRows) 1 1 [0]).start :=
  C33_selection (inp := ofRows Unit [2, -1] exRows) 6 1 .lt [0] (by decide) (by decide) (by decide) (by decide) (by decide)
    (ofRows_clean _ _ _).forever.yields

/-! ## C34 -/

/-- C34: projection yields the chosen columns of every row, in order; its schema lists the chosen columns. -/
theorem C34_projection {I : W → Prop} {inp : Oper W} {rows : List (List Byte)} (cols : List Nat)
    (hw : Spec.width inp.schema < 2 ^ 16) (hwo : Spec.width (projection inp cols).schema < 2 ^ 16)
    (hc : ∀ c ∈ cols, c < inp.schema.length)
    (hl : ∀ r ∈ rows, r.length = Spec.width inp.schema) (hy : Yields I inp rows inp.start) :
    Yields I (projection inp cols) (Spec.project inp.schema cols rows) (projection inp cols).start ∧
    (projection inp cols).schema = (cols.map fun c => inp.schema.getD c 0) ∧
    ∀ r ∈ Spec.project inp.schema cols rows, r.length = Spec.width (projection inp cols).schema := by
  refine ⟨projection_once hw hc ?_ hl hy, rfl, ?_⟩
  · rw [List.length_replicate]; exact recordSize_eq hwo
  · intro r hr
    unfold Spec.project at hr
    rw [List.mem_map] at hr
    obtain ⟨r0, h0, rfl⟩ := hr
    show _ = Spec.width (cols.map fun c => inp.schema.getD c 0)
    rw [List.length_flatten, Spec.width, List.map_map, List.map_map]
    congr 1
    apply List.map_congr_left
    intro c hcm
    exact columns_getD_length inp.schema r0 c (hc c hcm) (hl r0 h0)

/-- C34, on an input that keeps returning 0. -/
theorem C34_projection_clean {I : W → Prop} {inp : Oper W} {rows : List (List Byte)} (cols : List Nat)
    (hw : Spec.width inp.schema < 2 ^ 16) (hwo : Spec.width (projection inp cols).schema < 2 ^ 16)
    (hc : ∀ c ∈ cols, c < inp.schema.length)
    (hl : ∀ r ∈ rows, r.length = Spec.width inp.schema) (hy : YieldsForever I inp rows inp.start) :
    YieldsClean I (projection inp cols) (Spec.project inp.schema cols rows) (projection inp cols).start := by
  refine projection_clean hw hc ?_ hl hy
  rw [List.length_replicate]; exact recordSize_eq hwo

/-- C34: the output schema addresses the projected columns inside an output row. -/
theorem C34_layout (s : Schema) (cols : List Nat) (r : List Byte) (hc : ∀ c ∈ cols, c < s.length)
    (hr : r.length = Spec.width s) :
    Spec.columns (cols.map fun c => s.getD c 0) (cols.map fun c => (Spec.columns s r).getD c []).flatten
      = cols.map fun c => (Spec.columns s r).getD c [] := by
  induction cols with
  | nil => rfl
  | cons c cols ih =>
    have hlen := columns_getD_length s r c (hc c (by simp)) hr
    simp only [List.map_cons, List.flatten_cons, Spec.columns]
    rw [← hlen, List.take_left', List.drop_left', ih fun c h => hc c (by simp [h])]
    · rfl
    · rfl

example : Spec.project [2, -1] [1, 0, 1] exRows = [[5, 1, 0, 5], [0xff, 2, 0, 0xff], [0xff, 3, 0, 0xff], [7, 0, 1, 7], [0x80, 1, 1, 0x80]] := by
  decide

example : Yields (fun _ : Unit => True) (projection (ofRows Unit [2, -1] exRows) [1, 0, 1])
    (Spec.project [2, -1] [1, 0, 1] exRows) (projection (ofRows Unit [2, -1] exRows) [1, 0, 1]).start :=
  (C34_projection (inp := ofRows Unit [2, -1] exRows) [1, 0, 1] (by decide) (by decide) (by decide) (by decide)
    (ofRows_clean _ _ _).forever.yields).1

/-! ## C35 -/

/-- C35: one output row per maximal run, each function reset and then fed exactly the run's rows, once, in order.
`groups` is *the* division of the rows into maximal runs; `aggRow` is defined from `feed` in `Spec/Stream.lean`.
The functions must not depend on state left over from before `reset`, and `compute` must fill its column. -/
theorem C35_aggregate {I : W → Prop} {inp : Oper W} {fs : List (Agg A)} {grp : List Byte → List Byte → Bool}
    {rows : List (List Byte)} {groups : List (List (List Byte))} (a0 : A) (as : List A) (F : Nat)
    (hw : Spec.width inp.schema < 2 ^ 16) (hwo : Spec.width (fs.map Agg.colSize) < 2 ^ 16) (has : as.length = fs.length)
    (hF : rows.length + 1 < F) (hl : ∀ r ∈ rows, r.length = Spec.width inp.schema)
    (hg : Spec.IsGrouping grp rows groups)
    (hreset : ∀ f ∈ fs, ∀ a a', f.reset a = f.reset a')
    (hfeed : ∀ g ∈ groups, ∀ f ∈ fs, ∃ v, feed f (f.reset a0) g = .ok v ∧
      (f.out v (g.getLast?.getD [])).length = f.colSize.natAbs)
    (hy : YieldsForever I inp rows inp.start) :
    YieldsClean I (aggregate F inp fs as grp) (groups.map (aggRow a0 fs)) (aggregate F inp fs as grp).start := by
  obtain ⟨rfl, h2⟩ := hg
  refine aggregate_clean hw hwo groups _ has.symm ?_ hF hl ⟨rfl, h2⟩ ⟨hreset, hfeed⟩ (Or.inl ⟨rfl, hy⟩)
  show (List.replicate _ _).length = _
  rw [List.length_replicate, recordSize_eq hwo]

/-- The division into maximal runs always exists. -/
theorem grouping_exists (same : List Byte → List Byte → Bool) (rows : List (List Byte)) :
    ∃ groups, Spec.IsGrouping same rows groups := by
  induction rows with
  | nil => exact ⟨[], rfl, by simp, by simp, by simp⟩
  | cons r rows ih =>
    obtain ⟨gs, h1, h2, h3, h4⟩ := ih
    cases gs with
    | nil =>
      refine ⟨[[r]], ?_, by simp, ?_, ?_⟩
      · simp at h1; simp [← h1]
      · intro g hg l a b t e
        simp only [List.mem_singleton] at hg
        subst hg
        have := congrArg List.length e
        simp at this
        omega
      · intro l g h t e
        have := congrArg List.length e
        simp at this
        omega
    | cons g gs =>
      obtain ⟨x, t, rfl⟩ := List.exists_cons_of_ne_nil (h2 g (by simp))
      by_cases hs : same r x = true
      · refine ⟨(r :: x :: t) :: gs, by simpa using h1, ?_, ?_, ?_⟩
        · intro g hg
          rw [List.mem_cons] at hg
          rcases hg with rfl | hg
          · simp
          · exact h2 g (by simp [hg])
        · intro g hg l a b u e
          rw [List.mem_cons] at hg
          rcases hg with rfl | hg
          · cases l with
            | nil => simp only [List.nil_append, List.cons.injEq] at e; obtain ⟨rfl, rfl, -⟩ := e; exact hs
            | cons y l =>
              simp only [List.cons_append, List.cons.injEq] at e
              exact h3 (x :: t) (by simp) l a b u e.2
          · exact h3 g (by simp [hg]) l a b u e
        · intro l g h u e a b ha hb
          cases l with
          | nil =>
            simp only [List.nil_append, List.cons.injEq] at e
            obtain ⟨rfl, rfl⟩ := e
            rw [List.getLast?_cons_cons] at ha
            exact h4 [] (x :: t) h u rfl a b ha hb
          | cons y l =>
            simp only [List.cons_append, List.cons.injEq] at e
            obtain ⟨rfl, rfl⟩ := e
            exact h4 ((x :: t) :: l) g h u rfl a b ha hb
      · refine ⟨[r] :: (x :: t) :: gs, by simpa using h1, ?_, ?_, ?_⟩
        · intro g hg
          rw [List.mem_cons] at hg
          rcases hg with rfl | hg
          · simp
          · exact h2 g hg
        · intro g hg l a b u e
          rw [List.mem_cons] at hg
          rcases hg with rfl | hg
          · have := congrArg List.length e
            simp at this
            omega
          · exact h3 g hg l a b u e
        · intro l g h u e a b ha hb
          cases l with
          | nil =>
            simp only [List.nil_append, List.cons.injEq] at e
            obtain ⟨rfl, rfl, rfl⟩ := e
            simp at ha hb
            subst ha hb
            simpa using hs
          | cons y l =>
            simp only [List.cons_append, List.cons.injEq] at e
            obtain ⟨-, e⟩ := e
            exact h4 l g h u e a b ha hb

/-! ## C36 -/

theorem aggOut_of_feed {a0 : A} {f : Agg A} {g : List (List Byte)} {v : A} (h : feed f (f.reset a0) g = .ok v) :
    aggOut a0 f g = f.out v (g.getLast?.getD []) := by
  unfold aggOut; rw [h]

/-- C36: COUNT is the number of rows (the counter is 32 bits wide). -/
theorem C36_count (a0 : AggState) (g : List (List Byte)) :
    aggOut a0 countAgg g = leBytes 4 g.length ∧ (g.length < 2 ^ 32 → Spec.uval (aggOut a0 countAgg g) = g.length) := by
  have h := count_feed g 0
  have : aggOut a0 countAgg g = leBytes 4 (g.length % 2 ^ 32) := by
    rw [aggOut_of_feed h, Nat.zero_add]
    rfl
  have e : leBytes 4 (g.length % 2 ^ 32) = leBytes 4 g.length := by
    apply leNat_inj
    · rw [leBytes_length, leBytes_length]
    · rw [leNat_leBytes, leNat_leBytes]; norm_num
  rw [this, e]
  refine ⟨rfl, fun hlt => ?_⟩
  rw [uval_eq, leNat_leBytes_of_lt (by norm_num at hlt ⊢; exact hlt)]

/-- C36: SUM of an unsigned column of width 1..8, modulo 2^64. -/
theorem C36_sum_unsigned (a0 : AggState) (s : Schema) (col : Nat) (g : List (List Byte))
    (hw : Spec.width s < 2 ^ 16) (hc : col < s.length) (hs : 0 < s.getD col 0) (h8 : s.getD col 0 ≤ 8) :
    (Spec.uval (aggOut a0 (sumAgg s col) g) : Int) = ((g.map fun r => Spec.field s r col).sum) % 2 ^ 64 := by
  have h := sum_feed_unsigned hw hc (by omega) (by omega) g 0
  have : aggOut a0 (sumAgg s col) g = leBytes 8 ((g.map fun r => Spec.uval ((Spec.columns s r).getD col [])).sum % 2 ^ 64) := by
    rw [aggOut_of_feed h, Nat.zero_add]
    rfl
  rw [this, uval_eq, leNat_leBytes]
  have hsum : ∀ g : List (List Byte), (((g.map fun r => Spec.uval ((Spec.columns s r).getD col [])).sum : Nat) : Int)
      = (g.map fun r => Spec.field s r col).sum := by
    intro g
    induction g with
    | nil => rfl
    | cons r g ih =>
      simp only [List.map_cons, List.sum_cons]
      push_cast
      rw [ih]
      congr 1
      unfold Spec.field Spec.value
      rw [if_neg (by omega)]
  rw [← hsum]
  norm_num

/-- C36: SUM of a signed column.  The full claim covers widths 1..8; the code's sign test is only defined up to
width 4 (`C36_sum_signed_false`).  Also every prefix sum must fit 64 bits, else the C addition overflows. -/
theorem C36_sum_signed_partial (a0 : AggState) (s : Schema) (col : Nat) (g : List (List Byte))
    (hw : Spec.width s < 2 ^ 16) (hc : col < s.length) (hs : s.getD col 0 < 0) (h4 : -4 ≤ s.getD col 0)
    (hl : ∀ r ∈ g, r.length = Spec.width s)
    (hz : ∀ k ≤ g.length, -(2 ^ 63) ≤ ((g.take k).map fun r => Spec.field s r col).sum ∧
      ((g.take k).map fun r => Spec.field s r col).sum < 2 ^ 63) :
    Spec.sval (aggOut a0 (sumAgg s col) g) = (g.map fun r => Spec.field s r col).sum := by
  have h := sum_feed_signed hw hc hs (by omega) g 0 hl (by simpa using hz)
  have hfin := hz g.length le_rfl
  rw [List.take_length] at hfin
  generalize (g.map fun r => Spec.field s r col).sum = z at *
  have : aggOut a0 (sumAgg s col) g = leBytes 8 (cell z) := by
    rw [aggOut_of_feed h, zero_add]
    rfl
  have hcell : cell z < 256 ^ 8 := by unfold cell; norm_num; omega
  rw [this]
  unfold Spec.sval
  rw [uval_eq, leNat_leBytes_of_lt hcell, leBytes_length]
  unfold cell
  norm_num
  split_ifs <;> omega

/-- C36: MIN of a non-empty group is attained and not above any value; every width and signedness. -/
theorem C36_min (a0 : AggState) (s : Schema) (col : Nat) (g : List (List Byte))
    (hw : Spec.width s < 2 ^ 16) (hc : col < s.length) (hs : s.getD col 0 ≠ 0) (hl : ∀ r ∈ g, r.length = Spec.width s)
    (hg : g ≠ []) :
    (∀ r ∈ g, Spec.value (s.getD col 0) (aggOut a0 (minAgg s col) g) ≤ Spec.field s r col) ∧
    (∃ r ∈ g, Spec.value (s.getD col 0) (aggOut a0 (minAgg s col) g) = Spec.field s r col) := by
  obtain ⟨v, h1, h2, h3, h4, h5⟩ := min_feed hw hc g (maxOf (s.getD col 0)) hl (maxOf_length hs)
  have : aggOut a0 (minAgg s col) g = v := by
    rw [aggOut_of_feed h1]
    rfl
  rw [this]
  refine ⟨h4, ?_⟩
  rcases h5 with h5 | h5
  · obtain ⟨r, g', rfl⟩ := List.exists_cons_of_ne_nil hg
    refine ⟨r, by simp, ?_⟩
    have a := h4 r (by simp)
    have b : Spec.field s r col ≤ Spec.value (s.getD col 0) (maxOf (s.getD col 0)) :=
      value_le_maxOf hs _ (columns_getD_length s r col hc (hl r (by simp)))
    omega
  · exact h5

/-- C36: MAX of a non-empty group. -/
theorem C36_max (a0 : AggState) (s : Schema) (col : Nat) (g : List (List Byte))
    (hw : Spec.width s < 2 ^ 16) (hc : col < s.length) (hs : s.getD col 0 ≠ 0) (hl : ∀ r ∈ g, r.length = Spec.width s)
    (hg : g ≠ []) :
    (∀ r ∈ g, Spec.field s r col ≤ Spec.value (s.getD col 0) (aggOut a0 (maxAgg s col) g)) ∧
    (∃ r ∈ g, Spec.value (s.getD col 0) (aggOut a0 (maxAgg s col) g) = Spec.field s r col) := by
  obtain ⟨v, h1, h2, h3, h4, h5⟩ := max_feed hw hc g (minOf (s.getD col 0)) hl (minOf_length hs)
  have : aggOut a0 (maxAgg s col) g = v := by
    rw [aggOut_of_feed h1]
    rfl
  rw [this]
  refine ⟨h4, ?_⟩
  rcases h5 with h5 | h5
  · obtain ⟨r, g', rfl⟩ := List.exists_cons_of_ne_nil hg
    refine ⟨r, by simp, ?_⟩
    have a := h4 r (by simp)
    have b : Spec.value (s.getD col 0) (minOf (s.getD col 0)) ≤ Spec.field s r col :=
      minOf_le_value hs _ (columns_getD_length s r col hc (hl r (by simp)))
    omega
  · exact h5

theorem sum_uval_field {s : Schema} {col : Nat} (hs : 0 ≤ s.getD col 0) (g : List (List Byte)) :
    (((g.map fun r => Spec.uval ((Spec.columns s r).getD col [])).sum : Nat) : Int) = (g.map fun r => Spec.field s r col).sum := by
  induction g with
  | nil => rfl
  | cons r g ih =>
    simp only [List.map_cons, List.sum_cons]
    push_cast
    rw [ih]
    congr 1
    unfold Spec.field Spec.value
    rw [if_neg (by omega)]

/-- C50: AVG of an unsigned column: the platform's quotient of the exact sum and the exact number of rows, as long as
neither overflows. -/
theorem C50_avg_unsigned (a0 : AggState) (quot : Int → Nat → Nat) (size : Int) (s : Schema) (col : Nat) (g : List (List Byte))
    (hw : Spec.width s < 2 ^ 16) (hc : col < s.length) (hs : 0 < s.getD col 0) (h8 : s.getD col 0 ≤ 8) (hn : g.length < 2 ^ 32)
    (hz : (g.map fun r => Spec.field s r col).sum < 2 ^ 64) :
    aggOut a0 (avgAgg quot s col size) g = leBytes (avgSize size).natAbs (quot (g.map fun r => Spec.field s r col).sum g.length) ∧
    ∃ v, feed (avgAgg quot s col size) ((avgAgg quot s col size).reset a0) g = .ok v := by
  have h := avg_feed (quot := quot) (size := size) hc g 0 0 _ (sum_feed_unsigned hw hc (by omega) (by omega) g 0)
  refine ⟨?_, _, h⟩
  rw [aggOut_of_feed h]
  have e : (((0 + (g.map fun r => Spec.uval ((Spec.columns s r).getD col [])).sum) % 2 ^ 64 : Nat) : Int) = (g.map fun r => Spec.field s r col).sum := by
    have := sum_uval_field (by omega) g (s := s) (col := col)
    rw [Nat.zero_add, Nat.mod_eq_of_lt (by omega)]
    exact this
  show leBytes (avgSize size).natAbs (quot (if s.getD col 0 < 0 then _ else _) _) = _
  rw [if_neg (by omega), e, Nat.zero_add, Nat.mod_eq_of_lt hn]

/-- C50: AVG of a signed column (`_partial`: as for SUM only widths up to 4 are defined, `C50_avg_signed_false`). -/
theorem C50_avg_signed_partial (a0 : AggState) (quot : Int → Nat → Nat) (size : Int) (s : Schema) (col : Nat) (g : List (List Byte))
    (hw : Spec.width s < 2 ^ 16) (hc : col < s.length) (hs : s.getD col 0 < 0) (h4 : -4 ≤ s.getD col 0)
    (hl : ∀ r ∈ g, r.length = Spec.width s) (hn : g.length < 2 ^ 32)
    (hz : ∀ k ≤ g.length, -(2 ^ 63) ≤ ((g.take k).map fun r => Spec.field s r col).sum ∧
      ((g.take k).map fun r => Spec.field s r col).sum < 2 ^ 63) :
    aggOut a0 (avgAgg quot s col size) g = leBytes (avgSize size).natAbs (quot (g.map fun r => Spec.field s r col).sum g.length) ∧
    ∃ v, feed (avgAgg quot s col size) ((avgAgg quot s col size).reset a0) g = .ok v := by
  have h := avg_feed (quot := quot) (size := size) hc g 0 0 _ (sum_feed_signed hw hc hs (by omega) g 0 hl (by simpa using hz))
  refine ⟨?_, _, h⟩
  have hfin := hz g.length le_rfl
  rw [List.take_length] at hfin
  rw [aggOut_of_feed h]
  show leBytes (avgSize size).natAbs (quot (if s.getD col 0 < 0 then asInt64 (cell _) else _) _) = _
  rw [if_pos hs, zero_add, asInt64_cell hfin, Nat.zero_add, Nat.mod_eq_of_lt hn]

/-- C50: the output size of AVG is 4 or 8, and the one asked for if that was possible. -/
theorem C50_avg_size (size : Int) : (avgSize size = 4 ∨ avgSize size = 8) ∧ (size = 4 ∨ size = 8 → avgSize size = size) := by
  unfold avgSize
  split_ifs <;> omega

example : aggOut (.cnt 0) (avgAgg (fun a b => (a.toNat / b)) [2, -1] 1 6) [[1, 0, 5], [2, 0, 0xff], [3, 0, 0x0b]] = [5, 0, 0, 0, 0, 0, 0, 0] := by
  decide +kernel

/-- The supplied functions meet the hypotheses of `C35_aggregate` (signed sums as in `C36_sum_signed_partial`). -/
theorem C36_feeds (a0 : AggState) (s : Schema) (col : Nat) (g : List (List Byte)) (hw : Spec.width s < 2 ^ 16)
    (hc : col < s.length) (hs : s.getD col 0 ≠ 0) (hl : ∀ r ∈ g, r.length = Spec.width s) (f : Agg AggState)
    (hf : f = countAgg ∨ f = minAgg s col ∨ f = maxAgg s col ∨ (f = sumAgg s col ∧ 0 < s.getD col 0 ∧ s.getD col 0 ≤ 8)) :
    (∀ a a', f.reset a = f.reset a') ∧
    ∃ v, feed f (f.reset a0) g = .ok v ∧ (f.out v (g.getLast?.getD [])).length = f.colSize.natAbs := by
  rcases hf with rfl | rfl | rfl | ⟨rfl, h0, h8⟩
  · exact ⟨fun _ _ => rfl, _, count_feed g 0, leBytes_length _ _⟩
  · obtain ⟨v, h1, h2, -⟩ := min_feed hw hc g (maxOf (s.getD col 0)) hl (maxOf_length hs)
    exact ⟨fun _ _ => rfl, _, h1, h2⟩
  · obtain ⟨v, h1, h2, -⟩ := max_feed hw hc g (minOf (s.getD col 0)) hl (minOf_length hs)
    exact ⟨fun _ _ => rfl, _, h1, h2⟩
  · exact ⟨fun _ _ => rfl, _, sum_feed_unsigned hw hc (by omega) (by omega) g 0, leBytes_length _ _⟩

/-- Same 100-block of the key. -/
def exSame (a b : List Byte) : Bool := decide (leNat (a.take 2) / 100 = leNat (b.take 2) / 100)

def exGroups : List (List (List Byte)) := [[[1, 0, 5], [2, 0, 0xff], [3, 0, 0xff]], [[0, 1, 7], [1, 1, 0x80]]]

example : exGroups.map (aggRow (.cnt 0) [countAgg, sumAgg [2, -1] 1, sumAgg [2, -1] 0, minAgg [2, -1] 1, maxAgg [2, -1] 1])
    = [[3, 0, 0, 0, 3, 0, 0, 0, 0, 0, 0, 0, 6, 0, 0, 0, 0, 0, 0, 0, 0xff, 5],
       [2, 0, 0, 0, 0x87, 0xff, 0xff, 0xff, 0xff, 0xff, 0xff, 0xff, 1, 2, 0, 0, 0, 0, 0, 0, 0x80, 7]] := by decide +kernel

theorem exGrouping : Spec.IsGrouping exSame exRows exGroups := by
  refine ⟨by decide, by decide, ?_, ?_⟩
  · intro g hg l a b r e
    simp only [exGroups, List.mem_cons, List.not_mem_nil, or_false] at hg
    rcases hg with rfl | rfl
    · match l, e with
      | [], e => cases e; decide
      | [_], e => cases e; decide
      | [_, _], e => cases e
      | _ :: _ :: _ :: _, e => simp at e
    · match l, e with
      | [], e => cases e; decide
      | [_], e => cases e
      | _ :: _ :: _, e => simp at e
  · intro l g h r e a b ha hb
    match l, e with
    | [], e => cases e; cases ha; cases hb; decide
    | [_], e => cases e
    | _ :: _ :: _, e => simp [exGroups] at e

example : YieldsClean (fun _ : Unit => True)
    (aggregate 10 (ofRows Unit [2, -1] exRows) [countAgg, minAgg [2, -1] 1] [.cnt 7, .cnt 8] exSame)
    (exGroups.map (aggRow (.cnt 0) [countAgg, minAgg [2, -1] 1]))
    (aggregate 10 (ofRows Unit [2, -1] exRows) [countAgg, minAgg [2, -1] 1] [.cnt 7, .cnt 8] exSame).start := by
  have hh : ∀ f ∈ [countAgg, minAgg [2, -1] 1], ∀ g ∈ exGroups, (∀ a a', f.reset a = f.reset a') ∧
      ∃ v, feed f (f.reset (.cnt 0)) g = .ok v ∧ (f.out v (g.getLast?.getD [])).length = f.colSize.natAbs := by
    intro f hf g hg
    refine C36_feeds (.cnt 0) [2, -1] 1 g (by decide) (by decide) (by decide) ?_ f ?_
    · revert g; decide
    · simp only [List.mem_cons, List.not_mem_nil, or_false] at hf
      rcases hf with rfl | rfl <;> simp
  exact C35_aggregate (inp := ofRows Unit [2, -1] exRows) (.cnt 0) _ 10 (by decide) (by decide) (by decide) (by decide) (by decide)
    exGrouping (fun f hf => (hh f hf _ (List.mem_cons_self)).1) (fun g hg f hf => (hh f hf g hg).2)
    (ofRows_clean _ _ _).forever

/-! ## C37 -/

/-- C37: the join of two streams ascending by an unsigned key column is the nested-loop join, in order. -/
theorem C37_join {I : W → Prop} {a b : Oper W} {n F : Nat} {g : List Byte} {xs ys : List (List Byte)}
    (hn : n = (a.schema.getD 0 0).natAbs) (hna : n ≤ Spec.width a.schema) (hnb : n ≤ Spec.width b.schema)
    (hwa : Spec.width a.schema < 2 ^ 16) (hwb : Spec.width b.schema < 2 ^ 16)
    (la : ∀ r ∈ xs, r.length = Spec.width a.schema) (lb : ∀ r ∈ ys, r.length = Spec.width b.schema)
    (ax : Spec.Ascending n xs) (ay : Spec.Ascending n ys) (hF : xs.length + ys.length < F)
    (ya : Yields I a xs a.start) (yb : Yields I b ys b.start) :
    Yields I (keyJoin F a b g) (Spec.join n xs ys) (keyJoin F a b g).start :=
  join_yields hn hna hnb hwa hwb la lb ax ay _ rfl hF ya yb

/-- C37: on non-empty inputs that end cleanly the join also keeps returning 0. -/
theorem C37_join_forever {I : W → Prop} {a b : Oper W} {n F : Nat} {g : List Byte} {xs ys : List (List Byte)}
    (hn : n = (a.schema.getD 0 0).natAbs) (hna : n ≤ Spec.width a.schema) (hnb : n ≤ Spec.width b.schema)
    (hwa : Spec.width a.schema < 2 ^ 16) (hwb : Spec.width b.schema < 2 ^ 16)
    (la : ∀ r ∈ xs, r.length = Spec.width a.schema) (lb : ∀ r ∈ ys, r.length = Spec.width b.schema)
    (ax : Spec.Ascending n xs) (ay : Spec.Ascending n ys) (hF : xs.length + ys.length < F) (hx : xs ≠ []) (hy : ys ≠ [])
    (ya : YieldsClean I a xs a.start) (yb : YieldsClean I b ys b.start) :
    YieldsForever I (keyJoin F a b g) (Spec.join n xs ys) (keyJoin F a b g).start :=
  join_clean hn hna hnb hwa hwb la lb ax ay _ rfl hF hx hy ya yb

/-- C37: `Spec.join` holds each matching pair, and nothing else. -/
theorem C37_join_mem (n : Nat) (xs ys : List (List Byte)) (r : List Byte) :
    r ∈ Spec.join n xs ys ↔ ∃ x ∈ xs, ∃ y ∈ ys, Spec.key n x = Spec.key n y ∧ r = x ++ y := by
  unfold Spec.join
  simp only [List.mem_flatMap, List.mem_map, List.mem_filter, decide_eq_true_eq]
  constructor
  · rintro ⟨x, hx, y, ⟨hy, hk⟩, rfl⟩; exact ⟨x, hx, y, hy, hk, rfl⟩
  · rintro ⟨x, hx, y, hy, hk, rfl⟩; exact ⟨x, hx, y, ⟨hy, hk⟩, rfl⟩

def exLeft : List (List Byte) := [[1, 0, 5], [3, 0, 6], [0, 1, 7], [9, 1, 8]]
def exRight : List (List Byte) := [[3, 0], [4, 0], [0, 1], [1, 1]]

example : Spec.join 2 exLeft exRight = [[3, 0, 6, 3, 0], [0, 1, 7, 0, 1]] := by decide

example : YieldsForever (fun _ : Unit => True) (keyJoin 9 (ofRows Unit [2, -1] exLeft) (ofRows Unit [2] exRight) [])
    (Spec.join 2 exLeft exRight) (keyJoin 9 (ofRows Unit [2, -1] exLeft) (ofRows Unit [2] exRight) []).start :=
  C37_join_forever (a := ofRows Unit [2, -1] exLeft) (b := ofRows Unit [2] exRight) (by decide) (by decide) (by decide)
    (by decide) (by decide) (by decide) (by decide) (by unfold Spec.Ascending; decide) (by unfold Spec.Ascending; decide)
    (by decide) (by decide) (by decide)
    (ofRows_clean _ _ _) (ofRows_clean _ _ _)

end EDB
