import Verif.Proofs.Plan
import Verif.Props.Index
import Verif.Props.Recovery
import Verif.Props.History

/-!
# C39: queries over tables

`Reached c K rs d x`: the table with state `d`, `x` got there through an ordinary life and holds the records `rs`.
`Spec.Plan` is the language of relational expressions with its meaning `Plan.rows`; `session` is a client that builds
the operators and runs them.
-/

namespace EDB

open Spec (Log Range Op AggFn Plan)

/-- Ways to get to a table that can be queried, and the records it then holds. -/
inductive Reached (c : Cfg) (K : Nat) : List Rec → Data → Idx → Prop
  /-- a new table without bitmap index, after a history that keeps the read cache safe -/
  | plain (lo : Nat) (ops : List Op) (rb : Page) (sm : Nat → Nat × Nat) (x x' : Idx) (d : Data)
      (hok : c.Ok K) (hB : Bounds c lo K ops.length) (h255 : c.maxRec ≤ 255) (hbm : c.useBmap = false) (hC : Client c lo K ops)
      (hS : NoStale c (Data.fresh c rb sm) x ops) (h : runOps c (Data.fresh c rb sm) x ops = .ok (d, x')) :
      Reached c K (let L := Spec.logAfter c.maxRec Log.empty (history c (Data.fresh c rb sm) x ops)
        L.live (Spec.dropped c.N c.B L.pages.length)) d x'
  /-- a new table with bitmap index, after a history that keeps caches and index safe -/
  | indexed (lo : Nat) (ops : List Op) (rb rb' : Page) (sm : Nat → Nat × Nat) (x : Idx) (d : Data)
      (hok : c.Ok K) (hx : c.IdxOk) (hB : Bounds c lo K ops.length) (h255 : c.maxRec ≤ 255) (hC : ClientX c lo K ops)
      (hS : SafeX c (Data.fresh c rb sm) (Idx.fresh c rb') ops)
      (h : runOpsX c (Data.fresh c rb sm) (Idx.fresh c rb') ops = .ok (d, x)) :
      Reached c K (let L := Spec.logAfter c.maxRec Log.empty (historyX c (Data.fresh c rb sm) (Idx.fresh c rb') ops)
        L.live (Spec.dropped c.N c.B L.pages.length)) d x
  /-- a table just reopened after any life with power failures -/
  | reopened (lo P : Nat) (d : Data) (L : Log) (x : Idx) (D : Durable c lo K P) (hbm : c.useBmap = false)
      (h : Life c lo K P d L) (hb : d.buffered = none) : Reached c K (L.live d.min) d x

theorem Reached.known {c : Cfg} {K : Nat} {rs : List Rec} {d : Data} {x : Idx} (h : Reached c K rs d x) :
    ∃ k : Known, k.K = K ∧ k.L.live k.m = rs ∧ TabOk c k ∧ Ready c k d x := by
  cases h with
  | plain lo ops rb sm x x' d hok hB h255 hbm hC hS h =>
    obtain ⟨d0, h1, h2, T⟩ := reached (rb := rb) (sm := sm) (x := x) hok hB h255 hC hS
    rw [h1] at h
    cases h
    refine ⟨⟨lo, K, 0, ops.length, d.min, _⟩, rfl, ?_, ⟨hok, hB⟩, ⟨T.sim, h2, rfl, Or.inl hbm⟩⟩
    simp only
    rw [T.dropped hok.B0]
  | indexed lo ops rb rb' sm x d hok hx hB h255 hC hS h =>
    obtain ⟨d0, x0, h1, T, h3, -⟩ := runOpsX_ok (m := 0) hok hx (Or.inl rfl) hB h255 ops _ _ Log.empty
      (fresh_tableX (lo := lo) hok rb rb' sm) (fresh_aligned c rb rb' sm) (by simp [Data.fresh]) hC (by simp [Log.all, Log.empty]) hS
    rw [h1] at h
    cases h
    refine ⟨⟨lo, K, 0, ops.length, d.min, _⟩, rfl, ?_, ⟨hok, hB⟩,
      ⟨T.table.sim, by simpa [Data.fresh] using h3, rfl, Or.inr ⟨hx, T.idx⟩⟩⟩
    simp only
    rw [T.table.dropped hok.B0]
  | reopened lo P d L x D hbm h hb =>
    have h32 : P ≤ 2 ^ 32 := by have := D.bounds.pages; omega
    obtain ⟨J, hlt, m, hm, hd, T⟩ := h.ok D.ok D.bounds h32 D.recs127 D.file32 D.eraser D.spline D.pos
    have e : clr d = d := by
      unfold clr
      rw [← hb]
    rw [e] at T
    exact ⟨⟨lo, K, m, P, d.min, L⟩, rfl, rfl, ⟨D.ok, D.bounds⟩, ⟨T.sim, by show d.next ≤ P; omega, rfl, Or.inl hbm⟩⟩

theorem drain_more {W : Type} {I : W → Prop} {op : Oper W} : ∀ {rows : List (List Byte)} {s : op.σ}, Yields I op rows s →
    ∀ n, rows.length < n → ∀ w, I w → ∃ w' s', drain op n w s = .ok (w', s', rows, true) ∧ I w'
  | [], s, h, n, hn, w, hw => by
    obtain ⟨w', s', a, b⟩ := h w hw
    obtain ⟨m, rfl⟩ : ∃ m, n = m + 1 := ⟨n - 1, by simp at hn; omega⟩
    exact ⟨w', s', by unfold drain; simp [a], b⟩
  | r :: rs, s, h, n, hn, w, hw => by
    obtain ⟨w', s', a, b, c, d⟩ := h w hw
    obtain ⟨m, rfl⟩ : ∃ m, n = m + 1 := ⟨n - 1, by simp at hn; omega⟩
    obtain ⟨w'', s'', e, f⟩ := drain_more d m (by simp at hn; omega) w' b
    exact ⟨w'', s'', by unfold drain; simp [a, e, c], f⟩

/-- C39 (`_partial`).  Any number of tables, each reached by an ordinary life (`Reached`); any sequence of queries, each
any tree of range scans, selections, projections, aggregations (COUNT, SUM, MIN, MAX, any grouping function) and key
joins, also several scans of one table in one query.  Every query returns exactly the rows of its relational expression
over the records the tables hold, in order, and then reports the end.
Missing: AVG (floating point); queries outside `PlanOk`, in particular an aggregation over a join directly of bounded
scans or of joins (`ends`), for which the property is false (`C39_false_join_ranges`). -/
theorem C39_queries_partial {T : Type} [DecidableEq T] (cs : T → Cfg) (K : T → Nat) (tbl : T → List Rec) (w : T → Data × Idx)
    (hr : ∀ t, Reached (cs t) (K t) (tbl t) (w t).1 (w t).2) (ps : List (Plan T))
    (hp : ∀ p ∈ ps, PlanOk cs K (Plan.rows tbl (fun t => (cs t).keySize) (fun t => (cs t).cmpData)) p)
    (a0 : AggState) (g : List Byte) :
    ∃ F0, ∀ F, F0 ≤ F → session cs F a0 g w ps =
      ps.map fun p => some (Plan.rows tbl (fun t => (cs t).keySize) (fun t => (cs t).cmpData) p) := by
  choose k hk1 hk2 hk3 hk4 using fun t => (hr t).known
  obtain rfl : (fun t => (k t).K) = K := funext hk1
  obtain rfl : (fun t => (k t).L.live (k t).m) = tbl := funext hk2
  have hw : WorldOk cs k w := hk4
  clear hr hk4 hk1 hk2
  have key : ∃ F0, ∀ F, F0 ≤ F → ∀ w, WorldOk cs k w → session cs F a0 g w ps = ps.map fun p => some (planRows cs k p) := by
    clear hw w
    induction ps with
    | nil => exact ⟨0, fun _ _ _ _ => rfl⟩
    | cons p ps ih =>
      obtain ⟨F1, h1⟩ := ih fun p h => hp p (List.mem_cons_of_mem _ h)
      obtain ⟨F2, h2⟩ := plan_fuel hk3 a0 g (hp p (List.mem_cons_self))
      refine ⟨max (max F1 F2) ((planRows cs k p).length + 1), fun F hF w hw => ?_⟩
      obtain ⟨op, b1, -, b3, -⟩ := h2 F (by omega) w hw
      obtain ⟨w', s', e1, e2⟩ := drain_more b3 F (by omega) w hw
      have e : runQuery cs F a0 g w p = some (w', planRows cs k p) := by
        unfold runQuery
        rw [b1]
        simp only
        rw [e1]
      rw [session, e]
      simp only [List.map_cons]
      rw [h1 F (by omega) w' e2]
  obtain ⟨F0, h⟩ := key
  exact ⟨F0, fun F hF => h F hF w hw⟩

/-- The join condition of `PlanOk` holds of all plans whose first column is a table's key: their rows are in strictly
ascending key order. -/
theorem C39_keyed {T : Type} [DecidableEq T] (cs : T → Cfg) (K : T → Nat) (tbl : T → List Rec) (w : T → Data × Idx)
    (hr : ∀ t, Reached (cs t) (K t) (tbl t) (w t).1 (w t).2) (p : Plan T)
    (hp : PlanOk cs K (Plan.rows tbl (fun t => (cs t).keySize) (fun t => (cs t).cmpData)) p) (hk : keyed p) :
    Spec.Ascending (p.schema.getD 0 0).natAbs (Plan.rows tbl (fun t => (cs t).keySize) (fun t => (cs t).cmpData) p) := by
  choose k hk1 hk2 hk3 hk4 using fun t => (hr t).known
  obtain rfl : (fun t => (k t).K) = K := funext hk1
  obtain rfl : (fun t => (k t).L.live (k t).m) = tbl := funext hk2
  exact keyed_ascending hk3 (w := w) hk4 hp hk

/-! ### The hypotheses are satisfiable -/

/-- Inserts into an indexed table. -/
def fewPuts : List Op := (List.range 11).map fun i => .put (i + 1) (dat (UInt8.ofNat (i % 8 * 12)))

/-- Two tables: `false` without index, `true` with. -/
def twoTables : Bool → Cfg := fun b => if b then demoIdx else demo

/-- Their records. -/
def twoContents : Bool → List Rec := fun b =>
  if b then [(5, dat 48), (6, dat 60), (7, dat 72), (8, dat 84), (9, dat 0), (10, dat 12), (11, dat 24)]
  else [(5, dat 4), (6, dat 5), (7, dat 6), (8, dat 7), (9, dat 8), (10, dat 9), (11, dat 10), (12, dat 11)]

/-- Count and sums over the join of a selection on a key range with a filtered scan. -/
def demoQuery : Plan Bool :=
  .aggregate
    (.join (.select (.scan false [4, 2, 2] ⟨some 6, some 11, none, none⟩) 1 .neq [7, 0])
      (.project (.scan true [4, -4] ⟨none, none, none, some (dat 72)⟩) [0, 1]))
    (fun _ _ => true) [.count, .sum 4, .max 1, .avg 4 false fun a b => a.toNat / b]

/-- Groups of keys with the same quotient by 4. -/
def demoGroups : Plan Bool :=
  .aggregate (.scan false [4, 4] ⟨some 6, some 10, none, none⟩) (fun a b => a.getD 0 0 / 4 == b.getD 0 0 / 4) [.min 0, .count]

theorem demo_reached : ∃ w : Bool → Data × Idx, ∀ t, Reached (twoTables t) 100 (twoContents t) (w t).1 (w t).2 := by
  have h1 : ((runOps demo demo0 noIdx demoPuts).check fun _ =>
      let L := Spec.logAfter demo.maxRec Log.empty (history demo demo0 noIdx demoPuts)
      decide (L.live (Spec.dropped demo.N demo.B L.pages.length) = twoContents false)) = true := by decide +kernel
  have h2 : ((runOpsX demoIdx demoIdx0 demoIdxX0 fewPuts).check fun _ =>
      let L := Spec.logAfter demoIdx.maxRec Log.empty (historyX demoIdx demoIdx0 demoIdxX0 fewPuts)
      decide (L.live (Spec.dropped demoIdx.N demoIdx.B L.pages.length) = twoContents true)) = true := by decide +kernel
  obtain ⟨⟨d1, x1⟩, e1, f1⟩ := Res.check_ok h1
  obtain ⟨⟨d2, x2⟩, e2, f2⟩ := Res.check_ok h2
  have c1 : Client demo 0 100 demoPuts := by
    refine ⟨by decide +kernel, ?_, ?_, ?_⟩
    · intro k v h
      simp only [demoPuts, List.mem_map, List.mem_range] at h
      obtain ⟨i, hi, e⟩ := h
      cases e
      exact ⟨Nat.zero_le _, by omega, rfl⟩
    · intro k h; simp [demoPuts] at h
    · intro k h; simp [demoPuts] at h
  have c2 : ClientX demoIdx 0 100 fewPuts := by
    refine ⟨by decide +kernel, ?_, ?_, ?_⟩
    · intro k v h
      simp only [fewPuts, List.mem_map, List.mem_range] at h
      obtain ⟨i, hi, e⟩ := h
      cases e
      exact ⟨Nat.zero_le _, by omega, rfl⟩
    · intro k h; simp [fewPuts] at h
    · intro k h; simp [fewPuts] at h
  refine ⟨fun b => if b then (d2, x2) else (d1, x1), fun t => ?_⟩
  cases t with
  | false =>
    have := Reached.plain (c := demo) (K := 100) 0 demoPuts _ _ noIdx x1 d1 (demo_ok _) (demo_bounds (by decide) (by decide)) (by decide)
      rfl c1 (NoStale.of_phased (K := 100) (lo := 0) (demo_ok _) _ _ _ ⟨demoPuts, [], [], by simp, by simp [demoPuts, Op.isPut], by simp,
        by simp, fun _ => rfl, fun _ => Or.inr rfl⟩ c1) e1
    rw [← show _ = twoContents false from of_decide_eq_true f1]
    exact this
  | true =>
    have := Reached.indexed (c := demoIdx) (K := 100) 0 fewPuts _ _ _ x2 d2 (demoIdx_ok _) demoIdx_idxOk
      (demoIdx_bounds (by decide) (by decide)) (by decide)
      c2 (PhasedX.safe (K := 100) (lo := 0) (demoIdx_ok _) _ _ _ ⟨fewPuts, [], by simp, by simp [fewPuts, Op.isPut], by simp,
        fun _ => ⟨rfl, rfl, Or.inr rfl⟩⟩ c2) e2
    rw [← show _ = twoContents true from of_decide_eq_true f2]
    exact this

/-- Both queries meet `PlanOk`, and their rows are not trivial. -/
theorem demo_planOk :
    (∀ p ∈ [demoQuery, demoGroups, demoQuery], PlanOk twoTables (fun _ => 100)
      (Plan.rows twoContents (fun t => (twoTables t).keySize) fun t => (twoTables t).cmpData) p) ∧
    Plan.rows twoContents (fun t => (twoTables t).keySize) (fun t => (twoTables t).cmpData) demoQuery =
      [[5, 0, 0, 0, 168, 0, 0, 0, 0, 0, 0, 0, 10, 0, 33, 0, 0, 0]] ∧
    Plan.rows twoContents (fun t => (twoTables t).keySize) (fun t => (twoTables t).cmpData) demoGroups =
      [[6, 0, 0, 0, 2, 0, 0, 0], [8, 0, 0, 0, 3, 0, 0, 0]] := by
  refine ⟨?_, by decide +kernel, by decide +kernel⟩
  have h1 : PlanOk twoTables (fun _ => 100)
      (Plan.rows twoContents (fun t => (twoTables t).keySize) fun t => (twoTables t).cmpData) demoQuery := by
    refine ⟨⟨⟨⟨by decide, by decide, by decide, by decide, by decide, ?_⟩, by decide, by decide⟩,
      ⟨⟨by decide, by decide, by decide, by decide, by decide, ?_⟩, by decide, by decide⟩, by decide, by decide, by decide, ?_, ?_⟩, ?_, ?_, by decide⟩
    · exact ⟨by simp, by simp⟩
    · exact ⟨by simp, by simp⟩
    · unfold Spec.Ascending; decide +kernel
    · unfold Spec.Ascending; decide +kernel
    · refine ⟨rfl, ?_, ?_⟩ <;> simp [ends]
    · intro f hf
      simp only [List.mem_cons, List.not_mem_nil, or_false] at hf
      rcases hf with rfl | rfl | rfl | rfl
      · trivial
      · exact ⟨by decide, Or.inr ⟨by decide, by decide, by decide +kernel⟩⟩
      · exact ⟨by decide, by decide⟩
      · exact ⟨by decide, by decide +kernel, Or.inr ⟨by decide, by decide⟩⟩
  have h2 : PlanOk twoTables (fun _ => 100)
      (Plan.rows twoContents (fun t => (twoTables t).keySize) fun t => (twoTables t).cmpData) demoGroups := by
    refine ⟨⟨by decide, by decide, by decide, by decide, by decide, ?_⟩, by simp [ends], ?_, by decide⟩
    · exact ⟨by simp, by simp⟩
    · intro f hf
      simp only [List.mem_cons, List.not_mem_nil, or_false] at hf
      rcases hf with rfl | rfl
      · exact ⟨by decide, by decide⟩
      · trivial
  intro p hp
  simp only [List.mem_cons, List.not_mem_nil, or_false] at hp
  rcases hp with rfl | rfl | rfl
  · exact h1
  · exact h2
  · exact h1

example : ∃ (w : Bool → Data × Idx) (F0 : Nat), ∀ F, F0 ≤ F → session twoTables F (.cnt 0) [] w [demoQuery, demoGroups, demoQuery] =
    [some [[5, 0, 0, 0, 168, 0, 0, 0, 0, 0, 0, 0, 10, 0, 33, 0, 0, 0]], some [[6, 0, 0, 0, 2, 0, 0, 0], [8, 0, 0, 0, 3, 0, 0, 0]],
      some [[5, 0, 0, 0, 168, 0, 0, 0, 0, 0, 0, 0, 10, 0, 33, 0, 0, 0]]] := by
  obtain ⟨w, hw⟩ := demo_reached
  obtain ⟨F0, h⟩ := C39_queries_partial twoTables (fun _ => 100) twoContents w hw _ demo_planOk.1 (.cnt 0) []
  refine ⟨w, F0, fun F hF => ?_⟩
  rw [h F hF]
  simp only [List.map_cons, List.map_nil, demo_planOk.2.1, demo_planOk.2.2]

end EDB
