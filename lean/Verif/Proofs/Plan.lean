import Verif.Proofs.TableScan
import Verif.Props.Query

/-!
# Operator trees yield the rows of their relational expression (helper lemmas)
-/

namespace EDB

open Spec (Log Range AggFn Plan)

/-! ## Aggregate functions -/

/-- What a client must respect when aggregating: column numbers exist; SUM of a signed column is only defined up to
width 4 and of an unsigned column up to width 8; AVG as SUM, without overflow; a group has fewer than 2^32 rows. -/
def AggFnOk (s : Schema) (n : Nat) : AggFn → Prop
  | .count => True
  | .sum col => col < s.length ∧ ((0 < s.getD col 0 ∧ s.getD col 0 ≤ 8) ∨ (s.getD col 0 < 0 ∧ -4 ≤ s.getD col 0 ∧ n < 2 ^ 32))
  | .min col => col < s.length ∧ s.getD col 0 ≠ 0
  | .max col => col < s.length ∧ s.getD col 0 ≠ 0
  | .avg col _ _ => col < s.length ∧ n < 2 ^ 32 ∧
      ((0 < s.getD col 0 ∧ s.getD col 0 ≤ 8 ∧ n * 256 ^ (s.getD col 0).natAbs ≤ 2 ^ 64) ∨ (s.getD col 0 < 0 ∧ -4 ≤ s.getD col 0))

theorem value_range {c : Int} {bs : List Byte} (h : bs.length = c.natAbs) (hc : c ≠ 0) :
    (leNat bs : Int) = Spec.value c bs % 256 ^ c.natAbs := by
  have hlt : (leNat bs : Int) < 256 ^ c.natAbs := by have := leNat_lt bs; rw [h] at this; exact_mod_cast this
  unfold Spec.value Spec.sval
  rw [uval_eq, h]
  have hp : (2 : Int) ^ (8 * c.natAbs) = 256 ^ c.natAbs := by rw [pow_mul]; norm_num
  split_ifs
  · rw [hp, Int.sub_emod_right, Int.emod_eq_of_lt (by omega) hlt]
  · rw [Int.emod_eq_of_lt (by omega) hlt]
  · rw [Int.emod_eq_of_lt (by omega) hlt]

theorem field_small {s : Schema} {r : List Byte} {col : Nat} (hc : col < s.length) (hr : r.length = Spec.width s)
    (h0 : s.getD col 0 < 0) (h4 : -4 ≤ s.getD col 0) : -(2 ^ 31) ≤ Spec.field s r col ∧ Spec.field s r col < 2 ^ 31 := by
  have hl := columns_getD_length s r col hc hr
  unfold Spec.field Spec.value
  rw [if_pos h0]
  unfold Spec.sval
  have hlt := leNat_lt ((Spec.columns s r).getD col [])
  rw [← uval_eq] at hlt
  generalize (Spec.columns s r).getD col [] = bs at *
  generalize Spec.uval bs = u at *
  rw [hl] at hlt ⊢
  have : (s.getD col 0).natAbs = 1 ∨ (s.getD col 0).natAbs = 2 ∨ (s.getD col 0).natAbs = 3 ∨ (s.getD col 0).natAbs = 4 := by omega
  rcases this with e | e | e | e <;> rw [e] at hlt ⊢ <;> norm_num at hlt ⊢ <;> split_ifs <;> omega

theorem sum_small (f : List Byte → Int) (B : Int) (g : List (List Byte)) (h : ∀ r ∈ g, -B ≤ f r ∧ f r < B) (hB : 0 ≤ B) :
    -(B * g.length) ≤ (g.map f).sum ∧ (g.map f).sum ≤ B * g.length := by
  induction g with
  | nil => simp
  | cons r g ih =>
    have h1 := h r (by simp)
    have h2 := ih (fun r hr => h r (by simp [hr]))
    simp only [List.map_cons, List.sum_cons, List.length_cons]
    push_cast
    rw [mul_add, mul_one]
    omega

theorem prefix_small {s : Schema} {col : Nat} {g : List (List Byte)} (hc : col < s.length) (h0 : s.getD col 0 < 0) (h4 : -4 ≤ s.getD col 0)
    (hn : g.length < 2 ^ 32) (hl : ∀ r ∈ g, r.length = Spec.width s) :
    ∀ k ≤ g.length, -(2 ^ 63) ≤ ((g.take k).map fun r => Spec.field s r col).sum ∧
      ((g.take k).map fun r => Spec.field s r col).sum < 2 ^ 63 := by
  intro k hk
  have := sum_small (fun r => Spec.field s r col) (2 ^ 31) (g.take k)
    (fun r hr => field_small hc (hl r (List.mem_of_mem_take hr)) h0 h4) (by norm_num)
  rw [List.length_take, Nat.min_eq_left hk] at this
  have hk' : (k : Int) < 2 ^ 32 := by exact_mod_cast (by omega : k < 2 ^ 32)
  generalize ((g.take k).map fun r => Spec.field s r col).sum = z at *
  obtain ⟨t1, t2⟩ := this
  constructor <;> norm_num at * <;> omega

theorem sum_unsigned_small {s : Schema} {col : Nat} {g : List (List Byte)} (hc : col < s.length) (h0 : 0 < s.getD col 0)
    (hl : ∀ r ∈ g, r.length = Spec.width s) (hg : g ≠ []) :
    (g.map fun r => Spec.field s r col).sum < (g.length * 256 ^ (s.getD col 0).natAbs : Nat) := by
  induction g with
  | nil => exact absurd rfl hg
  | cons r g ih =>
    have hlen := columns_getD_length s r col hc (hl r (by simp))
    have hlt := leNat_lt ((Spec.columns s r).getD col [])
    have hr : Spec.field s r col < (256 ^ (s.getD col 0).natAbs : Nat) := by
      unfold Spec.field Spec.value
      rw [if_neg (by omega), uval_eq]
      rw [hlen] at hlt
      exact_mod_cast hlt
    simp only [List.map_cons, List.sum_cons, List.length_cons]
    rw [Nat.add_mul, Nat.one_mul]
    push_cast
    push_cast at hr
    by_cases hg' : g = []
    · subst hg'
      simpa using hr
    · have := ih (fun r hr => hl r (by simp [hr])) hg'
      push_cast at this
      omega

theorem min?_getD {l : List Int} {v : Int} (h1 : ∀ x ∈ l, v ≤ x) (h2 : v ∈ l) : l.min?.getD 0 = v := by
  have : l.min? = some v := List.min?_eq_some_iff.mpr ⟨h2, h1⟩
  rw [this]; rfl

theorem max?_getD {l : List Int} {v : Int} (h1 : ∀ x ∈ l, x ≤ v) (h2 : v ∈ l) : l.max?.getD 0 = v := by
  have : l.max? = some v := List.max?_eq_some_iff.mpr ⟨h2, h1⟩
  rw [this]; rfl

/-- Feeding a group to a supplied function gives the cell of the specification. -/
theorem aggOf_cell (a0 : AggState) {s : Schema} (hw : Spec.width s < 2 ^ 16) {g : List (List Byte)} (hg : g ≠ [])
    (hl : ∀ r ∈ g, r.length = Spec.width s) {f : AggFn} (hf : AggFnOk s g.length f) :
    (∀ a a', (aggOf s f).reset a = (aggOf s f).reset a') ∧
    (∃ v, feed (aggOf s f) ((aggOf s f).reset a0) g = .ok v ∧
      ((aggOf s f).out v (g.getLast?.getD [])).length = (aggOf s f).colSize.natAbs) ∧
    aggOut a0 (aggOf s f) g = f.cell s g ∧ (aggOf s f).colSize = f.size s := by
  cases f with
  | count =>
    refine ⟨fun _ _ => rfl, ⟨_, count_feed g 0, leBytes_length _ _⟩, ?_, rfl⟩
    rw [show aggOf s .count = countAgg from rfl, (C36_count a0 g).1, leBytes_intBytes]
    rfl
  | sum col =>
    obtain ⟨hc, h⟩ := hf
    rcases h with ⟨h0, h8⟩ | ⟨h0, h4, hn⟩
    · have e := sum_feed_unsigned hw hc (by omega) (by omega) g 0
      refine ⟨fun _ _ => rfl, ⟨_, e, leBytes_length _ _⟩, ?_, rfl⟩
      refine eq_intBytes (by rw [show aggOf s (.sum col) = sumAgg s col from rfl, aggOut_of_feed e]; exact leBytes_length _ _) ?_
      have := C36_sum_unsigned a0 s col g hw hc h0 h8
      rw [uval_eq] at this
      show (leNat (aggOut a0 (sumAgg s col) g) : Int) = _
      rw [this]
      norm_num
    · have hz := prefix_small hc h0 h4 hn hl
      have e := sum_feed_signed hw hc h0 (by omega) g 0 hl (by simpa using hz)
      refine ⟨fun _ _ => rfl, ⟨_, e, leBytes_length _ _⟩, ?_, rfl⟩
      show aggOut a0 (sumAgg s col) g = _
      rw [aggOut_of_feed e, zero_add]
      refine eq_intBytes (leBytes_length _ _) ?_
      show (leNat (leBytes 8 (cell _)) : Int) = _
      rw [leNat_leBytes]
      unfold cell
      norm_num
      omega
  | min col =>
    obtain ⟨hc, h0⟩ := hf
    obtain ⟨v, h1, h2, h3, h4, h5⟩ := min_feed hw hc g (maxOf (s.getD col 0)) hl (maxOf_length h0)
    have hv : aggOut a0 (minAgg s col) g = v := by rw [aggOut_of_feed h1]; rfl
    refine ⟨fun _ _ => rfl, ⟨_, h1, h2⟩, ?_, rfl⟩
    show aggOut a0 (minAgg s col) g = _
    have hm := C36_min a0 s col g hw hc h0 hl hg
    rw [hv] at hm ⊢
    refine eq_intBytes h2 ?_
    rw [min?_getD (v := Spec.value (s.getD col 0) v)]
    · exact value_range h2 h0
    · intro x hx
      obtain ⟨r, hr, rfl⟩ := List.mem_map.mp hx
      exact hm.1 r hr
    · obtain ⟨r, hr, e⟩ := hm.2
      exact List.mem_map.mpr ⟨r, hr, e.symm⟩
  | max col =>
    obtain ⟨hc, h0⟩ := hf
    obtain ⟨v, h1, h2, h3, h4, h5⟩ := max_feed hw hc g (minOf (s.getD col 0)) hl (minOf_length h0)
    have hv : aggOut a0 (maxAgg s col) g = v := by rw [aggOut_of_feed h1]; rfl
    refine ⟨fun _ _ => rfl, ⟨_, h1, h2⟩, ?_, rfl⟩
    show aggOut a0 (maxAgg s col) g = _
    have hm := C36_max a0 s col g hw hc h0 hl hg
    rw [hv] at hm ⊢
    refine eq_intBytes h2 ?_
    rw [max?_getD (v := Spec.value (s.getD col 0) v)]
    · exact value_range h2 h0
    · intro x hx
      obtain ⟨r, hr, rfl⟩ := List.mem_map.mp hx
      exact hm.1 r hr
    · obtain ⟨r, hr, e⟩ := hm.2
      exact List.mem_map.mpr ⟨r, hr, e.symm⟩
  | avg col dbl quot =>
    obtain ⟨hc, hn, h⟩ := hf
    have hsz : avgSize (if dbl then 8 else 4) = if dbl then 8 else 4 := by cases dbl <;> rfl
    have hq : aggOut a0 (avgAgg quot s col (if dbl then 8 else 4)) g =
          leBytes (avgSize (if dbl then 8 else 4)).natAbs (quot (g.map fun r => Spec.field s r col).sum g.length) ∧
        ∃ v : Nat × Nat, feed (avgAgg quot s col (if dbl then 8 else 4)) ((avgAgg quot s col (if dbl then 8 else 4)).reset a0) g = .ok (.avg v.1 v.2) := by
      rcases h with ⟨h0, h8, h2⟩ | ⟨h0, h4⟩
      · have := sum_unsigned_small hc h0 hl hg
        exact ⟨(C50_avg_unsigned a0 quot _ s col g hw hc h0 h8 hn (lt_of_lt_of_le this (by exact_mod_cast h2))).1, (_, _),
          avg_feed hc g 0 0 _ (sum_feed_unsigned hw hc (by omega) (by omega) g 0)⟩
      · have hz := prefix_small hc h0 h4 hn hl
        exact ⟨(C50_avg_signed_partial a0 quot _ s col g hw hc h0 h4 hl hn hz).1, (_, _),
          avg_feed hc g 0 0 _ (sum_feed_signed hw hc h0 (by omega) g 0 hl (by simpa using hz))⟩
    obtain ⟨h1, v, h2⟩ := hq
    refine ⟨fun _ _ => rfl, ⟨_, h2, leBytes_length _ _⟩, ?_, hsz⟩
    show aggOut a0 (avgAgg quot s col (if dbl then 8 else 4)) g = _
    rw [h1, hsz, leBytes_intBytes]
    cases dbl <;> rfl

theorem aggOf_size (s : Schema) (fs : List AggFn) : (fs.map (aggOf s)).map Agg.colSize = fs.map (AggFn.size s) := by
  rw [List.map_map]
  apply List.map_congr_left
  intro f _
  cases f with
  | avg col dbl quot => cases dbl <;> rfl
  | _ => rfl

/-! ## Groups -/

theorem runs_grouping (same : List Byte → List Byte → Bool) (rows : List (List Byte)) :
    Spec.IsGrouping same rows (Spec.runs same rows) := by
  induction rows with
  | nil => exact ⟨rfl, by simp [Spec.runs], by simp [Spec.runs], by simp [Spec.runs]⟩
  | cons r rows ih =>
    obtain ⟨h1, h2, h3, h4⟩ := ih
    unfold Spec.runs
    cases hg : Spec.runs same rows with
    | nil =>
      rw [hg] at h1
      refine ⟨?_, by simp, ?_, ?_⟩
      · simp at h1; simp [← h1]
      · intro g hg l a b t e
        simp only [List.mem_singleton] at hg
        subst hg
        have := congrArg List.length e
        simp at this
        omega
      · intro l g h t e
        have := congrArg List.length e
        simp at this
        omega
    | cons g gs =>
      rw [hg] at h1 h2 h3 h4
      obtain ⟨x, t, rfl⟩ := List.exists_cons_of_ne_nil (h2 g (by simp))
      simp only
      by_cases hs : same r x = true
      · rw [if_pos hs]
        refine ⟨by simpa using h1, ?_, ?_, ?_⟩
        · intro g hg
          rw [List.mem_cons] at hg
          rcases hg with rfl | hg
          · simp
          · exact h2 g (by simp [hg])
        · intro g hg l a b u e
          rw [List.mem_cons] at hg
          rcases hg with rfl | hg
          · cases l with
            | nil => simp only [List.nil_append, List.cons.injEq] at e; obtain ⟨rfl, rfl, -⟩ := e; exact hs
            | cons y l =>
              simp only [List.cons_append, List.cons.injEq] at e
              exact h3 (x :: t) (by simp) l a b u e.2
          · exact h3 g (by simp [hg]) l a b u e
        · intro l g h u e a b ha hb
          cases l with
          | nil =>
            simp only [List.nil_append, List.cons.injEq] at e
            obtain ⟨rfl, rfl⟩ := e
            rw [List.getLast?_cons_cons] at ha
            exact h4 [] (x :: t) h u rfl a b ha hb
          | cons y l =>
            simp only [List.cons_append, List.cons.injEq] at e
            obtain ⟨rfl, rfl⟩ := e
            exact h4 ((x :: t) :: l) g h u rfl a b ha hb
      · rw [if_neg hs]
        refine ⟨by simpa using h1, ?_, ?_, ?_⟩
        · intro g hg
          rw [List.mem_cons] at hg
          rcases hg with rfl | hg
          · simp
          · exact h2 g hg
        · intro g hg l a b u e
          rw [List.mem_cons] at hg
          rcases hg with rfl | hg
          · have := congrArg List.length e
            simp at this
            omega
          · exact h3 g hg l a b u e
        · intro l g h u e a b ha hb
          cases l with
          | nil =>
            simp only [List.nil_append, List.cons.injEq] at e
            obtain ⟨rfl, rfl, rfl⟩ := e
            simp at ha hb
            subst ha hb
            simpa using hs
          | cons y l =>
            simp only [List.cons_append, List.cons.injEq] at e
            obtain ⟨-, e⟩ := e
            exact h4 l g h u e a b ha hb

theorem runs_mem {same : List Byte → List Byte → Bool} {rows g : List (List Byte)} (hg : g ∈ Spec.runs same rows) :
    g ≠ [] ∧ (∀ r ∈ g, r ∈ rows) ∧ g.length ≤ rows.length := by
  obtain ⟨h1, h2, -⟩ := runs_grouping same rows
  refine ⟨h2 g hg, fun r hr => ?_, ?_⟩
  · rw [← h1]; exact List.mem_flatten.mpr ⟨g, hg, hr⟩
  · obtain ⟨l, t, e⟩ := List.append_of_mem hg
    rw [e] at h1
    have := congrArg List.length h1
    simp at this
    omega

/-! ## Plans -/

section
variable {T : Type}

/-- What an operator does after it has returned rows and then 0.  `ends false p`: it keeps returning 0;
`ends true p`: and its record buffer keeps the last row.  A join gives the first only over inputs with the second;
a bounded scan leaves the first record behind the range in its buffer. -/
def ends : Bool → Plan T → Prop
  | b, .scan _ _ q => b = true → q = ⟨none, none, none, none⟩
  | _, .select p _ _ _ => ends false p
  | _, .project p _ => ends false p
  | _, .aggregate _ _ _ => True
  | b, .join p q => b = false ∧ ends true p ∧ ends true q

/-- What a client must respect when building a query.  `K t` bounds the keys of table `t`, `R p` are the rows of `p`.
- A scan's schema has the key as first, unsigned column and covers the record.
- Column numbers exist and constants have the width of their column; rows are shorter than 64 KiB.
- An aggregation asks its input once more after the end, so the input must keep returning 0.
- Both inputs of a join are strictly ascending by an unsigned key column of the same width. -/
def PlanOk (cs : T → Cfg) (K : T → Nat) (R : Plan T → List (List Byte)) : Plan T → Prop
  | .scan t s q => 2 ≤ s.length ∧ 0 < s.getD 0 0 ∧ (s.getD 0 0).natAbs = (cs t).keySize ∧
      Spec.width s = (cs t).keySize + (cs t).dataSize ∧ Spec.width s < 2 ^ 16 ∧ KeysOk (K t) q
  | .select p col _ const => PlanOk cs K R p ∧ col < p.schema.length ∧ const.length = (p.schema.getD col 0).natAbs
  | .project p cols => PlanOk cs K R p ∧ (∀ c ∈ cols, c < p.schema.length) ∧ Spec.width (Plan.project p cols).schema < 2 ^ 16
  | .aggregate p same fs => PlanOk cs K R p ∧ ends false p ∧ (∀ f ∈ fs, AggFnOk p.schema (R p).length f) ∧
      Spec.width (Plan.aggregate p same fs).schema < 2 ^ 16
  | .join p q => PlanOk cs K R p ∧ PlanOk cs K R q ∧ 0 < p.schema.getD 0 0 ∧ p.schema.getD 0 0 = q.schema.getD 0 0 ∧
      Spec.width (p.schema ++ q.schema) < 2 ^ 16 ∧
      Spec.Ascending (p.schema.getD 0 0).natAbs (R p) ∧ Spec.Ascending (p.schema.getD 0 0).natAbs (R q)

variable {cs : T → Cfg} {k : T → Known}

/-- The rows of a plan over the records the tables hold. -/
abbrev planRows (cs : T → Cfg) (k : T → Known) : Plan T → List (List Byte) :=
  Plan.rows (fun t => (k t).L.live (k t).m) (fun t => (cs t).keySize) (fun t => (cs t).cmpData)

theorem plan_width {K : T → Nat} {R : Plan T → List (List Byte)} : ∀ {p : Plan T}, PlanOk cs K R p → Spec.width p.schema < 2 ^ 16
  | .scan _ _ _, h => h.2.2.2.2.1
  | .select p _ _ _, h => plan_width (p := p) h.1
  | .project _ _, h => h.2.2
  | .aggregate _ _ _, h => h.2.2.2
  | .join _ _, h => h.2.2.2.2.1

theorem width_flatten {α : Type} (l : List α) (f : α → List Byte) (n : α → Int) (h : ∀ a ∈ l, (f a).length = (n a).natAbs) :
    (l.map f).flatten.length = Spec.width (l.map n) := by
  induction l with
  | nil => rfl
  | cons a l ih =>
    rw [List.map_cons, List.flatten_cons, List.length_append, h a (by simp), ih (fun a ha => h a (by simp [ha]))]
    simp [Spec.width]

theorem cell_length (s : Schema) (g : List (List Byte)) (f : AggFn) : (f.cell s g).length = (f.size s).natAbs := by
  cases f with
  | avg col dbl quot => cases dbl <;> exact intBytes_length _ _
  | _ => exact intBytes_length _ _

/-- All rows of a plan have the width of its schema. -/
theorem plan_rows_length (hd : ∀ t, ∀ r ∈ (k t).L.live (k t).m, r.2.length = (cs t).dataSize) {K : T → Nat} :
    ∀ {p : Plan T}, PlanOk cs K (planRows cs k) p → ∀ r ∈ planRows cs k p, r.length = Spec.width p.schema
  | .scan t s q, h, r, hr => by
    obtain ⟨x, hx, rfl⟩ := List.mem_map.mp hr
    have := hd t x (List.mem_of_mem_filter hx)
    show _ = Spec.width s
    rw [h.2.2.2.1]
    unfold Spec.row
    rw [List.length_append, intBytes_length, this]
  | .select p col op const, h, r, hr => plan_rows_length hd h.1 r (List.mem_of_mem_filter hr)
  | .project p cols, h, r, hr => by
    obtain ⟨x, hx, rfl⟩ := List.mem_map.mp hr
    exact width_flatten _ _ _ fun c hc => columns_getD_length _ _ c (h.2.1 c hc) (plan_rows_length hd h.1 x hx)
  | .aggregate p same fs, h, r, hr => by
    obtain ⟨x, hx, rfl⟩ := List.mem_map.mp hr
    exact width_flatten _ _ _ fun f _ => cell_length _ _ f
  | .join p q, h, r, hr => by
    obtain ⟨a, ha, b, hb, -, rfl⟩ := (C37_join_mem _ _ _ _).mp hr
    show _ = Spec.width (p.schema ++ q.schema)
    rw [List.length_append, plan_rows_length hd h.1 a ha, plan_rows_length hd h.2.1 b hb, width_append]

variable [DecidableEq T]

theorem getD_le_width (s : Schema) : (s.getD 0 0).natAbs ≤ Spec.width s := by
  cases s with
  | nil => simp
  | cons c s => simp [Spec.width]

/-- Every operator tree yields the rows of its plan. -/
theorem aggregate_empty {W A : Type} {I : W → Prop} {F : Nat} {inp : Oper W} {fs : List (Agg A)} {as : List A}
    {grp : List Byte → List Byte → Bool} (hF : 0 < F) (h : Yields I inp [] inp.start) :
    Yields I (aggregate F inp fs as grp) [] (aggregate F inp fs as grp).start := by
  intro w hw
  obtain ⟨w', s', e, h'⟩ := h w hw
  obtain ⟨f, rfl⟩ : ∃ f, F = f + 1 := ⟨F - 1, by omega⟩
  have key : ∃ s'', (aggregate (f + 1) inp fs as grp).next w (aggregate (f + 1) inp fs as grp).start = .ok (w', s'', false) := by
    show ∃ s'', aggNext (f + 1) inp fs grp w (aggregate (f + 1) inp fs as grp).start = .ok (w', s'', false)
    unfold aggNext aggregate
    simp only [Bool.false_eq_true, if_false]
    unfold aggLoop
    simp only [Res.ok_bind, e, Bool.false_eq_true, if_false]
    exact ⟨_, rfl⟩
  obtain ⟨s'', e'⟩ := key
  exact ⟨w', s'', e', h'⟩

theorem plan_fuel (H : ∀ t, TabOk (cs t) (k t)) (a0 : AggState) (g : List Byte) :
    ∀ {p : Plan T}, PlanOk cs (fun t => (k t).K) (planRows cs k) p → ∃ F0, ∀ F, F0 ≤ F → ∀ w, WorldOk cs k w → ∃ op,
      build cs F a0 g w p = some op ∧ op.schema = p.schema ∧ Yields (WorldOk cs k) op (planRows cs k p) op.start ∧
      (ends false p → planRows cs k p ≠ [] → YieldsForever (WorldOk cs k) op (planRows cs k p) op.start) ∧
      (ends true p → planRows cs k p ≠ [] → YieldsClean (WorldOk cs k) op (planRows cs k p) op.start) := by
  intro p
  induction p with
  | scan t s q =>
    intro hp
    obtain ⟨h1, h2, h3, h4, h5, h6⟩ := hp
    have hs : scanSchemaOk (cs t) s := ⟨h1, h2, h3, by rw [recordSize_eq h5, h4]⟩
    refine ⟨0, fun F _ w hw => ?_⟩
    obtain ⟨it, i1, i2, G⟩ := (hw t).init (H t) h6
    refine ⟨tableScan cs t s it, ?_, rfl, (tableScan_forever H hs G).yields, fun _ _ => tableScan_forever H hs G, ?_⟩
    · simp only [build]; rw [i1]
    · intro he _
      exact tableScan_clean H hs (i2.trans (he rfl)) G
  | select p col op const ih =>
    intro hp
    obtain ⟨F0, hF⟩ := ih hp.1
    have hwd := plan_width hp.1
    refine ⟨max F0 ((planRows cs k p).length + 1), fun F h w hw => ?_⟩
    have hd : ∀ t, ∀ r ∈ (k t).L.live (k t).m, r.2.length = (cs t).dataSize := fun t => (hw t).width
    have hl := plan_rows_length hd hp.1
    obtain ⟨o, b1, b2, b3, b4, b5⟩ := hF F (by omega) w hw
    refine ⟨selection F o col op.code const, by simp only [build]; rw [b1]; rfl, b2, ?_, ?_, ?_⟩
    · have := C33_selection F col op const (by rw [b2]; exact hwd) (by rw [b2]; exact hp.2.1) (by rw [b2]; exact hp.2.2)
        (by omega) (by rw [b2]; exact hl) b3
      rw [b2] at this; exact this
    · intro he hne
      have hn : planRows cs k p ≠ [] := fun e => hne (by unfold planRows Plan.rows; rw [show Plan.rows _ _ _ p = [] from e]; rfl)
      have := (C33_selection_clean F col op const (by rw [b2]; exact hwd) (by rw [b2]; exact hp.2.1) (by rw [b2]; exact hp.2.2)
        (by omega) (by rw [b2]; exact hl) (b4 he hn)).forever
      rw [b2] at this; exact this
    · intro he hne
      have hn : planRows cs k p ≠ [] := fun e => hne (by unfold planRows Plan.rows; rw [show Plan.rows _ _ _ p = [] from e]; rfl)
      have := C33_selection_clean F col op const (by rw [b2]; exact hwd) (by rw [b2]; exact hp.2.1) (by rw [b2]; exact hp.2.2)
        (by omega) (by rw [b2]; exact hl) (b4 he hn)
      rw [b2] at this; exact this
  | project p cols ih =>
    intro hp
    obtain ⟨F0, hF⟩ := ih hp.1
    have hwd := plan_width hp.1
    refine ⟨F0, fun F h w hw => ?_⟩
    have hd : ∀ t, ∀ r ∈ (k t).L.live (k t).m, r.2.length = (cs t).dataSize := fun t => (hw t).width
    have hl := plan_rows_length hd hp.1
    obtain ⟨o, b1, b2, b3, b4, b5⟩ := hF F h w hw
    have hsch : (projection o cols).schema = (Plan.project p cols).schema := by
      show (cols.map fun c => o.schema.getD c 0) = cols.map fun c => p.schema.getD c 0
      rw [b2]
    refine ⟨projection o cols, by simp only [build]; rw [b1]; rfl, hsch, ?_, ?_, ?_⟩
    · have := (C34_projection cols (by rw [b2]; exact hwd) (by rw [hsch]; exact hp.2.2) (by rw [b2]; exact hp.2.1)
        (by rw [b2]; exact hl) b3).1
      rw [b2] at this; exact this
    · intro he hne
      have hn : planRows cs k p ≠ [] := fun e => hne (by unfold planRows Plan.rows; rw [show Plan.rows _ _ _ p = [] from e]; rfl)
      have := (C34_projection_clean cols (by rw [b2]; exact hwd) (by rw [hsch]; exact hp.2.2) (by rw [b2]; exact hp.2.1)
        (by rw [b2]; exact hl) (b4 he hn)).forever
      rw [b2] at this; exact this
    · intro he hne
      have hn : planRows cs k p ≠ [] := fun e => hne (by unfold planRows Plan.rows; rw [show Plan.rows _ _ _ p = [] from e]; rfl)
      have := C34_projection_clean cols (by rw [b2]; exact hwd) (by rw [hsch]; exact hp.2.2) (by rw [b2]; exact hp.2.1)
        (by rw [b2]; exact hl) (b4 he hn)
      rw [b2] at this; exact this
  | aggregate p same fs ih =>
    intro hp
    obtain ⟨F0, hF⟩ := ih hp.1
    have hwd := plan_width hp.1
    refine ⟨max F0 ((planRows cs k p).length + 2), fun F h w hw => ?_⟩
    have hd : ∀ t, ∀ r ∈ (k t).L.live (k t).m, r.2.length = (cs t).dataSize := fun t => (hw t).width
    have hl := plan_rows_length hd hp.1
    obtain ⟨o, b1, b2, b3, b4, b5⟩ := hF F (by omega) w hw
    have hfeed : ∀ gr ∈ Spec.runs same (planRows cs k p), ∀ f ∈ fs,
        (∀ a a', (aggOf p.schema f).reset a = (aggOf p.schema f).reset a') ∧
        (∃ v, feed (aggOf p.schema f) ((aggOf p.schema f).reset a0) gr = .ok v ∧
          ((aggOf p.schema f).out v (gr.getLast?.getD [])).length = (aggOf p.schema f).colSize.natAbs) ∧
        aggOut a0 (aggOf p.schema f) gr = f.cell p.schema gr ∧ (aggOf p.schema f).colSize = f.size p.schema := by
      intro gr hg f hf
      obtain ⟨r1, r2, r3⟩ := runs_mem hg
      refine aggOf_cell a0 hwd r1 (fun r hr => hl r (r2 r hr)) ?_
      have := hp.2.2.1 f hf
      cases f with
      | count => trivial
      | sum col => exact ⟨this.1, this.2.imp id fun h => ⟨h.1, h.2.1, by omega⟩⟩
      | min col => exact this
      | max col => exact this
      | avg col dbl quot =>
        exact ⟨this.1, lt_of_le_of_lt r3 this.2.1, this.2.2.imp (fun h => ⟨h.1, h.2.1, le_trans (Nat.mul_le_mul_right _ r3) h.2.2⟩) id⟩
    by_cases hn : planRows cs k p = []
    · have e : planRows cs k (.aggregate p same fs) = [] := by
        show (Spec.runs same (planRows cs k p)).map _ = _
        rw [hn]; rfl
      rw [hn] at b3
      rw [e]
      exact ⟨_, by simp only [build]; rw [b1]; rfl, aggOf_size _ _, aggregate_empty (by omega) b3, fun _ h => absurd rfl h,
        fun _ h => absurd rfl h⟩
    have hclean : YieldsClean (WorldOk cs k) (aggregate F o (fs.map (aggOf p.schema)) (fs.map fun _ => a0) same)
        (planRows cs k (.aggregate p same fs)) (aggregate F o (fs.map (aggOf p.schema)) (fs.map fun _ => a0) same).start := by
      have hrows : planRows cs k (.aggregate p same fs)
          = (Spec.runs same (planRows cs k p)).map (aggRow a0 (fs.map (aggOf p.schema))) := by
        show (Spec.runs same (planRows cs k p)).map _ = _
        apply List.map_congr_left
        intro gr hg
        unfold aggRow
        rw [List.map_map]
        congr 1
        apply List.map_congr_left
        intro f hf
        exact (hfeed gr hg f hf).2.2.1.symm
      rw [hrows]
      refine C35_aggregate a0 _ F (by rw [b2]; exact hwd) (by rw [aggOf_size]; exact hp.2.2.2) (by simp) (by omega)
        (by rw [b2]; exact hl) (runs_grouping same _) ?_ ?_ (b4 hp.2.1 hn)
      · intro f hf
        obtain ⟨f', -, rfl⟩ := List.mem_map.mp hf
        intro a a'
        cases f' <;> rfl
      · intro gr hg f hf
        obtain ⟨f', hf', rfl⟩ := List.mem_map.mp hf
        exact (hfeed gr hg f' hf').2.1
    exact ⟨_, by simp only [build]; rw [b1]; rfl, aggOf_size _ _, hclean.forever.yields, fun _ _ => hclean.forever, fun _ _ => hclean⟩
  | join p q ihp ihq =>
    intro hp
    obtain ⟨h1, h2, h3, h4, h5, h6, h7⟩ := hp
    obtain ⟨F1, hF1⟩ := ihp h1
    obtain ⟨F2, hF2⟩ := ihq h2
    refine ⟨max (max F1 F2) ((planRows cs k p).length + (planRows cs k q).length + 1), fun F h w hw => ?_⟩
    have hd : ∀ t, ∀ r ∈ (k t).L.live (k t).m, r.2.length = (cs t).dataSize := fun t => (hw t).width
    have hl1 := plan_rows_length hd h1
    have hl2 := plan_rows_length hd h2
    obtain ⟨o1, a1, a2, a3, a4, a5⟩ := hF1 F (by omega) w hw
    obtain ⟨o2, b1, b2, b3, b4, b5⟩ := hF2 F (by omega) w hw
    have hlen : (planRows cs k p).length + (planRows cs k q).length < F := by omega
    have hwa : Spec.width o1.schema < 2 ^ 16 := by rw [a2]; exact plan_width h1
    have hwb : Spec.width o2.schema < 2 ^ 16 := by rw [b2]; exact plan_width h2
    refine ⟨keyJoin F o1 o2 g, by simp only [build]; rw [a1, b1], ?_, ?_, ?_, fun he => nomatch he.1⟩
    · show o1.schema ++ o2.schema = _; rw [a2, b2]; rfl
    · exact C37_join (n := (p.schema.getD 0 0).natAbs) (by rw [a2]) (by rw [a2]; exact getD_le_width _)
        (by rw [b2, h4]; exact getD_le_width _) hwa hwb (by rw [a2]; exact hl1) (by rw [b2]; exact hl2) h6 h7 hlen a3 b3
    · intro he hne
      have hn1 : planRows cs k p ≠ [] := fun e => hne (by
        show Spec.join _ (planRows cs k p) _ = []
        rw [e]; rfl)
      have hn2 : planRows cs k q ≠ [] := fun e => hne (by
        show Spec.join _ _ (planRows cs k q) = []
        rw [e]; simp [Spec.join])
      exact C37_join_forever (n := (p.schema.getD 0 0).natAbs) (by rw [a2]) (by rw [a2]; exact getD_le_width _)
        (by rw [b2, h4]; exact getD_le_width _) hwa hwb (by rw [a2]; exact hl1) (by rw [b2]; exact hl2) h6 h7 hlen
        hn1 hn2 (a5 he.2.1 hn1) (b5 he.2.2 hn2)

/-! ### Plans whose rows are in key order -/

/-- The first column of the plan is the key of a table. -/
def keyed : Plan T → Prop
  | .scan _ _ _ => True
  | .select p _ _ _ => keyed p
  | .project p cols => keyed p ∧ cols.head? = some 0
  | .aggregate _ _ _ => False
  | .join p q => keyed p ∧ keyed q

theorem keyed_schema {K : T → Nat} {R : Plan T → List (List Byte)} : ∀ {p : Plan T}, PlanOk cs K R p → keyed p → 0 < p.schema.length
  | .scan _ s _, h, _ => by have h2 : 2 ≤ s.length := h.1; show 0 < s.length; omega
  | .select p _ _ _, h, hk => keyed_schema (p := p) h.1 hk
  | .project p cols, h, hk => by
    obtain ⟨-, e⟩ := hk
    cases cols with
    | nil => simp at e
    | cons c cols => simp [Plan.schema]
  | .join p q, h, hk => by
    have := keyed_schema h.1 hk.1
    show 0 < (p.schema ++ q.schema).length
    rw [List.length_append]; omega

theorem key_row {n a : Nat} {v : List Byte} (h : a < 256 ^ n) : Spec.key n (Spec.row n (a, v)) = a := by
  unfold Spec.key Spec.row
  rw [List.take_append_of_le_length (by rw [intBytes_length]), List.take_of_length_le (by rw [intBytes_length]), uval_eq]
  have := leNat_intBytes n a
  have e : (a : Int) % 256 ^ n = a := Int.emod_eq_of_lt (by omega) (by exact_mod_cast h)
  rw [e] at this
  exact_mod_cast this

theorem keyed_ascending (H : ∀ t, TabOk (cs t) (k t)) {w : T → Data × Idx} (hw : WorldOk cs k w) :
    ∀ {p : Plan T}, PlanOk cs (fun t => (k t).K) (planRows cs k) p → keyed p →
      Spec.Ascending (p.schema.getD 0 0).natAbs (planRows cs k p) := by
  have hd : ∀ t, ∀ r ∈ (k t).L.live (k t).m, r.2.length = (cs t).dataSize := fun t => (hw t).width
  intro p
  induction p with
  | scan t s q =>
    intro hp _
    show ((Spec.scan _ q ((k t).L.live (k t).m)).map (Spec.row (cs t).keySize)).Pairwise _
    rw [List.pairwise_map]
    have hs : ((k t).L.live (k t).m).Pairwise (fun r s => r.1 < s.1) := Log_live_sorted (hw t).sim.sorted _
    refine (List.Pairwise.and_mem.mp (hs.sublist List.filter_sublist)).imp ?_
    rintro ⟨a, u⟩ ⟨b, v⟩ ⟨ha, hb, hab⟩
    have hb : ∀ r ∈ (k t).L.live (k t).m, r.1 < 256 ^ (cs t).keySize := by
      intro r hr
      have h1 := ((hw t).sim.bound r (by
        rcases mem_live.mp hr with ⟨n, hn, -, h⟩ | h
        · exact mem_all_page hn h
        · exact mem_all_buf h)).2
      have := (H t).bounds.key
      omega
    have e : (Plan.scan t s q).schema.getD 0 0 = s.getD 0 0 := rfl
    rw [e, hp.2.2.1, key_row (hb _ (List.mem_of_mem_filter ha)), key_row (hb (b, v) (List.mem_of_mem_filter ‹_›))]
    exact hab
  | select p col op const ih =>
    intro hp hk
    exact (ih hp.1 hk).sublist List.filter_sublist
  | project p cols ih =>
    intro hp hk
    have hp0 := hp
    obtain ⟨hk, e⟩ := hk
    cases cols with
    | nil => simp at e
    | cons c cols =>
      simp only [List.head?_cons, Option.some.injEq] at e
      subst e
      have h0 := keyed_schema hp.1 hk
      have hl := plan_rows_length hd hp.1
      show ((planRows cs k p).map _).Pairwise _
      rw [List.pairwise_map]
      refine (List.Pairwise.and_mem.mp (ih hp.1 hk)).imp ?_
      rintro a b ⟨ha, hb, hab⟩
      have key : ∀ r ∈ planRows cs k p, Spec.key (p.schema.getD 0 0).natAbs
          ((List.map (fun c => (Spec.columns p.schema r).getD c []) (0 :: cols)).flatten) = Spec.key (p.schema.getD 0 0).natAbs r := by
        intro r hr
        have hlen := hl r hr
        have hw0 := getD_le_width p.schema
        have e : (Spec.columns p.schema r).getD 0 [] = r.take (p.schema.getD 0 0).natAbs := by
          cases hsc : p.schema with
          | nil => rw [hsc] at h0; simp at h0
          | cons a s => simp [Spec.columns]
        unfold Spec.key
        simp only [List.map_cons, List.flatten_cons]
        rw [e, List.take_append_of_le_length (by rw [List.length_take]; omega), List.take_take, Nat.min_self]
      have e2 : (Plan.project p (0 :: cols)).schema.getD 0 0 = p.schema.getD 0 0 := by simp [Plan.schema]
      rw [e2, key a ha, key b hb]
      exact hab
  | aggregate p same fs ih => intro _ hk; exact hk.elim
  | join p q ihp ihq =>
    intro hp hk
    have h0 := keyed_schema hp.1 hk.1
    have hl := plan_rows_length hd hp.1
    have e : (Plan.join p q).schema.getD 0 0 = p.schema.getD 0 0 := by
      show (p.schema ++ q.schema).getD 0 0 = _
      cases hsc : p.schema with
      | nil => rw [hsc] at h0; simp at h0
      | cons a s => simp
    rw [e]
    have key : ∀ a ∈ planRows cs k p, ∀ b, Spec.key (p.schema.getD 0 0).natAbs (a ++ b) = Spec.key (p.schema.getD 0 0).natAbs a := by
      intro a ha b
      unfold Spec.key
      have h1 := hl a ha
      have h2 := getD_le_width p.schema
      rw [List.take_append_of_le_length (by omega)]
    show ((planRows cs k p).flatMap _).Pairwise _
    rw [List.pairwise_flatMap]
    refine ⟨fun a ha => ?_, (List.Pairwise.and_mem.mp (ihp hp.1 hk.1)).imp ?_⟩
    · rw [List.pairwise_map]
      have hs := (List.Pairwise.and_mem.mp ((hp.2.2.2.2.2.2).sublist
        (List.filter_sublist (p := fun b => decide (Spec.key (p.schema.getD 0 0).natAbs a = Spec.key (p.schema.getD 0 0).natAbs b)))))
      refine hs.imp ?_
      rintro b b' ⟨hb, hb', hlt⟩
      have e1 := of_decide_eq_true (List.mem_filter.mp hb).2
      have e2 := of_decide_eq_true (List.mem_filter.mp hb').2
      omega
    · rintro a a' ⟨ha, ha', hlt⟩ x hx y hy
      obtain ⟨b, -, rfl⟩ := List.mem_map.mp hx
      obtain ⟨b', -, rfl⟩ := List.mem_map.mp hy
      rw [key a ha, key a' ha']
      exact hlt

end

end EDB
