import Verif.Proofs.Compare
import Verif.Spec.Query
import Verif.Spec.Stream

/-! Helper lemmas: schemas, selection, projection. -/

namespace EDB

variable {W : Type}

/-! ## Streams -/

theorem EndsClean.forever {I : W → Prop} {op : Oper W} {s : op.σ} (h : EndsClean I op s) : EndsForever I op s := by
  obtain ⟨P, h0, h1⟩ := h
  refine ⟨P, h0, fun s hs w hw => ?_⟩
  obtain ⟨w', s', a, b, c, -⟩ := h1 s hs w hw
  exact ⟨w', s', a, b, c⟩

theorem EndsForever.ends {I : W → Prop} {op : Oper W} {s : op.σ} (h : EndsForever I op s) : Ends I op s := by
  obtain ⟨P, h0, h1⟩ := h
  intro w hw
  obtain ⟨w', s', a, b, -⟩ := h1 s h0 w hw
  exact ⟨w', s', a, b⟩

theorem YieldsThen.mono {I : W → Prop} {op : Oper W} {E E' : op.σ → Prop} (h : ∀ s, E s → E' s) :
    ∀ {rows s}, YieldsThen I op E rows s → YieldsThen I op E' rows s
  | [], s, hs => h s hs
  | r :: rs, s, hs => by
    intro w hw
    obtain ⟨w', s', a, b, c, d⟩ := hs w hw
    exact ⟨w', s', a, b, c, YieldsThen.mono h d⟩

theorem YieldsClean.forever {I : W → Prop} {op : Oper W} {rows s} (h : YieldsClean I op rows s) :
    YieldsForever I op rows s := YieldsThen.mono (fun _ => EndsClean.forever) h

theorem YieldsForever.yields {I : W → Prop} {op : Oper W} {rows s} (h : YieldsForever I op rows s) :
    Yields I op rows s := YieldsThen.mono (fun _ => EndsForever.ends) h

theorem drain_of_yields {I : W → Prop} {op : Oper W} : ∀ {rows : List (List Byte)} {s : op.σ}, Yields I op rows s →
    ∀ w, I w → ∃ w' s', drain op (rows.length + 1) w s = .ok (w', s', rows, true) ∧ I w'
  | [], s, h, w, hw => by
    obtain ⟨w', s', a, b⟩ := h w hw
    exact ⟨w', s', by unfold drain; simp [a], b⟩
  | r :: rs, s, h, w, hw => by
    obtain ⟨w', s', a, b, c, d⟩ := h w hw
    obtain ⟨w'', s'', e, f⟩ := drain_of_yields d w' b
    refine ⟨w'', s'', ?_, f⟩
    unfold drain
    simp only [a, Res.ok_bind, if_true, List.length_cons, e, c]

/-! ## Schemas -/

theorem foldl_natAbs (s : Schema) (n : Nat) : s.foldl (fun pos c => pos + c.natAbs) n = n + Spec.width s := by
  induction s generalizing n with
  | nil => simp [Spec.width]
  | cons c s ih => rw [List.foldl_cons, ih]; simp [Spec.width]; omega

theorem width_take_le (s : Schema) (k : Nat) : Spec.width (s.take k) ≤ Spec.width s := by
  induction s generalizing k with
  | nil => simp [Spec.width]
  | cons c s ih =>
    cases k with
    | zero => simp [Spec.width]
    | succ k => have := ih k; simp only [Spec.width, List.take_succ_cons, List.map_cons, List.sum_cons] at *; omega

theorem recordSize_eq {s : Schema} (h : Spec.width s < 2 ^ 16) : recordSize s = Spec.width s := by
  unfold recordSize
  rw [foldl_natAbs, Nat.zero_add, Nat.mod_eq_of_lt h]

theorem colOffset_eq {s : Schema} (h : Spec.width s < 2 ^ 16) (k : Nat) : colOffset s k = Spec.width (s.take k) := by
  unfold colOffset
  rw [foldl_natAbs, Nat.zero_add, Nat.mod_eq_of_lt (lt_of_le_of_lt (width_take_le s k) h)]

theorem columns_length (s : Schema) (r : List Byte) : (Spec.columns s r).length = s.length := by
  induction s generalizing r with
  | nil => rfl
  | cons c s ih => simp [Spec.columns, ih]

theorem columns_getD (s : Schema) (r : List Byte) (k : Nat) (hk : k < s.length) :
    (Spec.columns s r).getD k [] = (r.drop (Spec.width (s.take k))).take (s.getD k 0).natAbs := by
  induction s generalizing r k with
  | nil => simp at hk
  | cons c s ih =>
    cases k with
    | zero => simp [Spec.columns, Spec.width]
    | succ k =>
      simp only [List.length_cons, Nat.add_lt_add_iff_right] at hk
      simp only [Spec.columns, List.getD_cons_succ, ih _ k hk, List.take_succ_cons, Spec.width, List.map_cons,
        List.sum_cons, List.drop_drop]

theorem column_eq {s : Schema} (h : Spec.width s < 2 ^ 16) (r : List Byte) (k : Nat) (hk : k < s.length) :
    column s r k = (Spec.columns s r).getD k [] := by
  unfold column
  rw [colOffset_eq h, columns_getD s r k hk]

theorem width_take_add (s : Schema) (k : Nat) (hk : k < s.length) :
    Spec.width (s.take k) + (s.getD k 0).natAbs ≤ Spec.width s := by
  induction s generalizing k with
  | nil => simp at hk
  | cons c s ih =>
    cases k with
    | zero => simp [Spec.width]
    | succ k =>
      simp only [List.length_cons, Nat.add_lt_add_iff_right] at hk
      have := ih k hk
      simp only [Spec.width, List.take_succ_cons, List.map_cons, List.sum_cons, List.getD_cons_succ] at *
      omega

theorem columns_getD_length (s : Schema) (r : List Byte) (k : Nat) (hk : k < s.length) (hr : r.length = Spec.width s) :
    ((Spec.columns s r).getD k []).length = (s.getD k 0).natAbs := by
  rw [columns_getD s r k hk, List.length_take, List.length_drop]
  have := width_take_add s k hk
  omega

theorem take_of_width {s : Schema} (h : Spec.width s < 2 ^ 16) {r : List Byte} (hr : r.length = Spec.width s) :
    r.take (recordSize s) = r := by
  rw [recordSize_eq h]; exact List.take_of_length_le (by omega)

/-! ## Comparison -/

theorem compare_eq (a b : List Byte) (op : Spec.CmpOp) (c : Int) (ha : c.natAbs ≤ a.length)
    (hb : b.length = c.natAbs) :
    compare a op.code b (decide (c < 0)) c.natAbs = op.holds (Spec.value c (a.take c.natAbs)) (Spec.value c b) := by
  have hv : (if decide (c < 0) then compareSigned a b c.natAbs else compareUnsigned a b c.natAbs)
      = Spec.cmp3 (Spec.value c (a.take c.natAbs)) (Spec.value c b) := by
    have tb : b.take c.natAbs = b := List.take_of_length_le (by omega)
    by_cases h : c < 0
    · rw [if_pos (by simpa using h), compareSigned_eq a b _ (by omega) ha (by omega), tb]
      unfold Spec.value
      rw [if_pos h, if_pos h, leInt_eq, leInt_eq]
      · omega
      · rw [List.length_take]; omega
    · rw [if_neg (by simpa using h)]
      unfold compareUnsigned
      rw [cmpBytes_eq a b _ ha (by omega), tb]
      unfold Spec.value
      rw [if_neg h, if_neg h, uval_eq, uval_eq]
  unfold compare
  simp only [hv]
  generalize Spec.value c (a.take c.natAbs) = x
  generalize Spec.value c b = y
  have h3 : Spec.cmp3 x y = if x < y then -1 else if y < x then 1 else 0 := rfl
  cases op <;> simp only [Spec.CmpOp.code, Spec.CmpOp.holds, h3] <;>
    refine decide_eq_decide.mpr ?_ <;> split_ifs <;> simp <;> omega

/-! ## Selection -/

/-- The test `nextSelection` applies to an input row. -/
def selTest (inp : Oper W) (col op : Nat) (val : List Byte) (r : List Byte) : Bool :=
  compare (r.drop (colOffset inp.schema col)) op val (decide (inp.schema.getD col 0 < 0)) (inp.schema.getD col 0).natAbs

/-- What one run of the selection loop does, given the rows the input will produce. -/
theorem selLoop_spec {I : W → Prop} {inp : Oper W} {col op : Nat} {val : List Byte} {E : inp.σ → Prop}
    (hE : ∀ s, E s → Ends I inp s)
    (hw : Spec.width inp.schema < 2 ^ 16) :
    ∀ (rows : List (List Byte)) (f : Nat) (s : inp.σ) (b : List Byte), rows.length < f →
      (∀ r ∈ rows, r.length = Spec.width inp.schema) → YieldsThen I inp E rows s → ∀ w, I w →
      (rows.filter (selTest inp col op val) = [] ∧ ∃ w' s' s0, selLoop inp col op val f w s b = .ok (w', (s', b), false) ∧ I w' ∧
          E s0 ∧ ∃ w0, I w0 ∧ inp.next w0 s0 = .ok (w', s', false)) ∨
      (∃ r rest, rows.filter (selTest inp col op val) = r :: rest.filter (selTest inp col op val) ∧
        rest.length < rows.length ∧ (∀ r ∈ rest, r.length = Spec.width inp.schema) ∧
        ∃ w' s', selLoop inp col op val f w s b = .ok (w', (s', r), true) ∧ I w' ∧ YieldsThen I inp E rest s')
  | [], 0, s, b, hf, hl, hy, w, hi => by simp at hf
  | _ :: _, 0, s, b, hf, hl, hy, w, hi => by simp at hf
  | [], f + 1, s, b, hf, hl, hy, w, hi => by
    left
    obtain ⟨w', s', h1, h2⟩ := hE s hy w hi
    refine ⟨rfl, w', s', s, ?_, h2, hy, w, hi, h1⟩
    unfold selLoop
    simp [h1]
  | r :: rs, f + 1, s, b, hf, hl, hy, w, hi => by
    obtain ⟨w', s', h1, h2, h3, h4⟩ := hy w hi
    have hl' : ∀ r ∈ rs, r.length = Spec.width inp.schema := fun r h => hl r (by simp [h])
    by_cases ht : selTest inp col op val r = true
    · right
      refine ⟨r, rs, by rw [List.filter_cons_of_pos ht], by simp, hl', w', s', ?_, h2, h4⟩
      unfold selLoop
      simp only [h1, Res.ok_bind, if_true, h3]
      refine (if_pos ht).trans ?_
      rw [take_of_width hw (hl r (by simp))]
    · rw [List.filter_cons_of_neg ht]
      have he : selLoop inp col op val (f + 1) w s b = selLoop inp col op val f w' s' b := by
        conv => lhs; unfold selLoop
        simp only [h1, Res.ok_bind, if_true, h3]
        exact if_neg ht
      rw [he]
      rcases selLoop_spec hE hw rs f s' b (by simp at hf; omega) hl' h4 w' h2 with h | ⟨r', rest, a1, a2, a3⟩
      · exact .inl h
      · exact .inr ⟨r', rest, a1, by simp; omega, a3⟩

theorem selection_yields {I : W → Prop} {inp : Oper W} {col op F : Nat} {val : List Byte} {E : inp.σ → Prop}
    (E' : (selection F inp col op val).σ → Prop)
    (hE : ∀ s, E s → Ends I inp s) (hw : Spec.width inp.schema < 2 ^ 16) (hc : col < inp.schema.length)
    (hE' : ∀ rows s b, rows.length < F → (∀ r ∈ rows, r.length = Spec.width inp.schema) →
      YieldsThen I inp E rows s → rows.filter (selTest inp col op val) = [] → E' (s, b)) :
    ∀ (n : Nat) (rows : List (List Byte)), rows.length ≤ n → ∀ (s : inp.σ) (b : List Byte), rows.length < F →
      (∀ r ∈ rows, r.length = Spec.width inp.schema) → YieldsThen I inp E rows s →
      YieldsThen I (selection F inp col op val) E' (rows.filter (selTest inp col op val)) (s, b) := by
  intro n
  induction n with
  | zero =>
    intro rows hn s b hF hl hy
    have : rows = [] := List.length_eq_zero_iff.mp (by omega)
    subst this
    exact hE' [] s b hF hl hy rfl
  | succ n ih =>
    intro rows hn s b hF hl hy
    by_cases hempty : rows.filter (selTest inp col op val) = []
    · rw [hempty]
      exact hE' rows s b hF hl hy hempty
    · obtain ⟨r, rest, he, hlen, hrest⟩ : ∃ (r : List Byte) (rest : List (List Byte)), rows.filter (selTest inp col op val) = r :: rest.filter (selTest inp col op val) ∧
        rest.length < rows.length ∧ (∀ r ∈ rest, r.length = Spec.width inp.schema) := by
        clear hy ih hE' hn hF
        induction rows with
        | nil => simp at hempty
        | cons x xs ih2 =>
          by_cases ht : selTest inp col op val x = true
          · exact ⟨x, xs, by rw [List.filter_cons_of_pos ht], by simp, fun r h => hl r (by simp [h])⟩
          · rw [List.filter_cons_of_neg ht] at hempty ⊢
            obtain ⟨r, rest, a, b, c⟩ := ih2 (fun r h => hl r (by simp [h])) hempty
            exact ⟨r, rest, a, by simp; omega, c⟩
      rw [he]
      intro w hi
      rcases selLoop_spec hE hw rows F s b hF hl hy w hi with ⟨h, -⟩ | ⟨r', rest', a1, a2, a3, w', s', a4, a5, a6⟩
      · exact absurd h hempty
      · have hr : r' = r := by rw [he] at a1; exact (List.cons.inj a1).1.symm
        have hrest' : rest.filter (selTest inp col op val) = rest'.filter (selTest inp col op val) := by
          rw [he] at a1; exact (List.cons.inj a1).2
        refine ⟨w', (s', r'), ?_, a5, hr, ?_⟩
        · exact (if_pos hc).trans a4
        · rw [hrest']
          exact ih rest' (by omega) s' r' (by omega) a3 a6

theorem selection_once {I : W → Prop} {inp : Oper W} {col op F : Nat} {val : List Byte} {rows : List (List Byte)} {s : inp.σ}
    {b : List Byte} (hw : Spec.width inp.schema < 2 ^ 16) (hc : col < inp.schema.length) (hF : rows.length < F)
    (hl : ∀ r ∈ rows, r.length = Spec.width inp.schema) (hy : Yields I inp rows s) :
    Yields I (selection F inp col op val) (rows.filter (selTest inp col op val)) (s, b) := by
  refine selection_yields (E := Ends I inp) (Ends I _) (fun _ h => h) hw hc ?_ _ rows le_rfl s b hF hl hy
  intro rows s b hF hl hy he w hi
  rcases selLoop_spec (E := Ends I inp) (fun _ h => h) hw rows F s b hF hl hy w hi with
    ⟨-, w', s', s0, h1, h2, -⟩ | ⟨r', rest', a1, -⟩
  · refine ⟨w', (s', b), ?_, h2⟩
    exact (if_pos hc).trans h1
  · rw [he] at a1; cases a1

theorem selection_clean {I : W → Prop} {inp : Oper W} {col op F : Nat} {val : List Byte} {rows : List (List Byte)} {s : inp.σ}
    {b : List Byte} (hw : Spec.width inp.schema < 2 ^ 16) (hc : col < inp.schema.length) (hF : rows.length < F)
    (hl : ∀ r ∈ rows, r.length = Spec.width inp.schema) (hy : YieldsForever I inp rows s) :
    YieldsClean I (selection F inp col op val) (rows.filter (selTest inp col op val)) (s, b) := by
  refine selection_yields (E := EndsForever I inp) (EndsClean I _) (fun _ h => h.ends) hw hc ?_ _ rows le_rfl s b hF hl hy
  intro rows s b hF hl hy he
  refine ⟨fun st => ∃ rows, rows.length < F ∧ (∀ r ∈ rows, r.length = Spec.width inp.schema) ∧
    YieldsForever I inp rows st.1 ∧ rows.filter (selTest inp col op val) = [], ⟨rows, hF, hl, hy, he⟩, ?_⟩
  rintro ⟨s, b⟩ ⟨rows, hF, hl, hy, he⟩ w hi
  rcases selLoop_spec (E := EndsForever I inp) (fun _ h => h.ends) hw rows F s b hF hl hy w hi with
    ⟨-, w', s', s0, h1, h2, ⟨P, p0, p1⟩, w0, i0, h3⟩ | ⟨r', rest', a1, -⟩
  · refine ⟨w', (s', b), ?_, h2, ⟨[], Nat.lt_of_le_of_lt (Nat.zero_le _) hF, by simp, ?_, rfl⟩, rfl⟩
    · exact (if_pos hc).trans h1
    · obtain ⟨w1, s1, e1, -, e3⟩ := p1 s0 p0 w0 i0
      rw [h3] at e1
      cases e1
      exact ⟨P, e3, p1⟩
  · rw [he] at a1; cases a1

/-! ## Projection -/

theorem putBytes_length {buf bs : List Byte} {off : Nat} (h : off + bs.length ≤ buf.length) :
    (putBytes buf off bs).length = buf.length := by
  unfold putBytes
  simp only [List.length_append, List.length_take, List.length_drop]
  omega

theorem projCopy_spec {s : Schema} {r : List Byte} (h : Spec.width s < 2 ^ 16) (hr : r.length = Spec.width s) :
    ∀ (cols : List Nat) (pos : Nat) (out : List Byte), (∀ c ∈ cols, c < s.length) →
      pos + Spec.width (cols.map fun c => s.getD c 0) = out.length →
      projCopy s r cols pos out = out.take pos ++ (cols.map fun c => (Spec.columns s r).getD c []).flatten
  | [], pos, out, _, hp => by
    have hp' : pos = out.length := by simpa [Spec.width] using hp
    unfold projCopy
    simp [hp']
  | c :: cols, pos, out, hc, hp => by
    unfold projCopy
    have hcl := columns_getD_length s r c (hc c (by simp)) hr
    have hcol := column_eq h r c (hc c (by simp))
    have hp' : pos + ((s.getD c 0).natAbs + Spec.width (cols.map fun c => s.getD c 0)) = out.length := by
      rw [← hp]; simp [Spec.width]
    rw [projCopy_spec h hr cols _ _ (fun d hd => hc d (by simp [hd]))]
    · rw [hcol]
      unfold putBytes
      simp only [List.map_cons, List.flatten_cons]
      rw [← List.append_assoc, List.append_assoc (out.take pos)]
      congr 1
      rw [show pos + (s.getD c 0).natAbs = (out.take pos ++ (Spec.columns s r).getD c []).length from by
        rw [List.length_append, List.length_take, hcl]; omega, ← List.append_assoc, List.take_left']
      rfl
    · rw [hcol, putBytes_length (by rw [hcl]; omega)]
      omega

theorem projection_next_true {inp : Oper W} {cols : List Nat} (hc : ∀ c ∈ cols, c < inp.schema.length) {w w' : W}
    {s s' : inp.σ} {b : List Byte} (h : inp.next w s = .ok (w', s', true)) :
    (projection inp cols).next w (s, b) = .ok (w', (s', projCopy inp.schema (inp.buf s') cols 0 b), true) := by
  refine Eq.trans (if_pos hc) ?_
  show (inp.next w s >>= _) = _
  rw [h]
  rfl

theorem projection_next_false {inp : Oper W} {cols : List Nat} (hc : ∀ c ∈ cols, c < inp.schema.length) {w w' : W}
    {s s' : inp.σ} {b : List Byte} (h : inp.next w s = .ok (w', s', false)) :
    (projection inp cols).next w (s, b) = .ok (w', (s', b), false) := by
  refine Eq.trans (if_pos hc) ?_
  show (inp.next w s >>= _) = _
  rw [h]
  rfl

theorem projection_yields {I : W → Prop} {inp : Oper W} {cols : List Nat} {E : inp.σ → Prop}
    (E' : (projection inp cols).σ → Prop) (hw : Spec.width inp.schema < 2 ^ 16) (hc : ∀ c ∈ cols, c < inp.schema.length)
    (hE : ∀ s b, b.length = Spec.width (cols.map fun c => inp.schema.getD c 0) → E s → E' (s, b)) :
    ∀ (rows : List (List Byte)) (s : inp.σ) (b : List Byte),
      b.length = Spec.width (cols.map fun c => inp.schema.getD c 0) →
      (∀ r ∈ rows, r.length = Spec.width inp.schema) → YieldsThen I inp E rows s →
      YieldsThen I (projection inp cols) E' (Spec.project inp.schema cols rows) (s, b)
  | [], s, b, hb, hl, hy => hE s b hb hy
  | r :: rs, s, b, hb, hl, hy => by
    intro w hi
    obtain ⟨w', s', h1, h2, h3, h4⟩ := hy w hi
    have hp := projCopy_spec hw (hl r (by simp)) cols 0 b hc (by rw [hb]; omega)
    simp only [List.take_zero, List.nil_append] at hp
    refine ⟨w', (s', projCopy inp.schema r cols 0 b), ?_, h2, hp, ?_⟩
    · rw [projection_next_true hc h1, h3]
    · apply projection_yields E' hw hc hE rs s' _ _ (fun r h => hl r (by simp [h])) h4
      rw [hp]
      clear hp hy
      rw [List.length_flatten, Spec.width, List.map_map, List.map_map]
      congr 1
      apply List.map_congr_left
      intro c hcm
      exact columns_getD_length inp.schema r c (hc c hcm) (hl r (by simp))

theorem projection_once {I : W → Prop} {inp : Oper W} {cols : List Nat} {rows : List (List Byte)} {s : inp.σ} {b : List Byte}
    (hw : Spec.width inp.schema < 2 ^ 16) (hc : ∀ c ∈ cols, c < inp.schema.length)
    (hb : b.length = Spec.width (cols.map fun c => inp.schema.getD c 0))
    (hl : ∀ r ∈ rows, r.length = Spec.width inp.schema) (hy : Yields I inp rows s) :
    Yields I (projection inp cols) (Spec.project inp.schema cols rows) (s, b) := by
  refine projection_yields (E := Ends I inp) (Ends I _) hw hc ?_ rows s b hb hl hy
  intro s b _ h w hi
  obtain ⟨w', s', h1, h2⟩ := h w hi
  refine ⟨w', (s', b), ?_, h2⟩
  exact projection_next_false hc h1

theorem projection_clean {I : W → Prop} {inp : Oper W} {cols : List Nat} {rows : List (List Byte)} {s : inp.σ} {b : List Byte}
    (hw : Spec.width inp.schema < 2 ^ 16) (hc : ∀ c ∈ cols, c < inp.schema.length)
    (hb : b.length = Spec.width (cols.map fun c => inp.schema.getD c 0))
    (hl : ∀ r ∈ rows, r.length = Spec.width inp.schema) (hy : YieldsForever I inp rows s) :
    YieldsClean I (projection inp cols) (Spec.project inp.schema cols rows) (s, b) := by
  refine projection_yields (E := EndsForever I inp) (EndsClean I _) hw hc ?_ rows s b hb hl hy
  rintro s b _ ⟨P, p0, p1⟩
  refine ⟨fun st => P st.1, p0, ?_⟩
  rintro ⟨s, b⟩ hs w hi
  obtain ⟨w', s', h1, h2, h3⟩ := p1 s hs w hi
  refine ⟨w', (s', b), ?_, h2, h3, rfl⟩
  exact projection_next_false hc h1

end EDB
