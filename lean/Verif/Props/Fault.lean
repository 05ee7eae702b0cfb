import Verif.Proofs.Fault
import Verif.Props.Mixed

/-!
# C58: reads that fail
-/

namespace EDB

open Spec (Log Range Op Out MOp MOut FOp setAt)

/-- C58 (`_partial`).  Any interleaving of inserts, flushes, lookups, scans and any number of iterators, in which during
each lookup and each `embedDBNext` any set of storage pages cannot be read, as long as the pages fit into the file: every
such call gives the exact result, or says "not found" / "no more rows" and has changed nothing, so that all later calls
are exact again; an iterator goes on with the very record it missed.

Missing: a failed read that has overwritten the buffer (`C58_false_torn`); failed reads during `embedDBPut`
(`C58_false_put`); the client cannot tell a miss from an absent record (`C58_false_silent`). -/
theorem C58_unwrapped_partial (c : Cfg) (lo K : Nat) (ops : List FOp) (rb : Page) (sm : Nat → Nat × Nat) (x : Idx)
    (hok : c.Ok K) (hB : Bounds c lo K ops.length) (h255 : c.maxRec ≤ 255) (hbm : c.useBmap = false)
    (hC : MClient c lo K (ops.map FOp.base)) (its : Nat → Option Iter) :
    Spec.FaultRun (fun l => l.pages.length ≤ c.N) (fun _ => 0) c.maxRec c.cmpData Log.empty (fun _ => none)
      (fhistory (step c) c (Data.fresh c rb sm) x its ops) := by
  refine fault_ok (lo := lo) (reader_plain (lo := lo) hok hB hbm h255) (G := fun _ _ _ _ => True) ?_ ?_
    (fun _ _ _ _ _ _ _ _ _ _ _ _ _ => trivial) ops _ x Log.empty its _ (fresh_table hok rb sm) (by simp [Log.empty])
    (by simp [Log.empty]) hC (by simp [Log.all, Log.empty]) trivial (fun _ _ h => by cases h)
  · intro d x L T hl
    rw [T.dropped hok.B0]
    unfold Spec.dropped
    rw [if_pos hl]
  · intro d x L its o ops T _ hP hC hgt _ hl
    exact op_plain hok hB hbm h255 T hP hC hgt (fun hc => unwrapped_safe hok T hc hl)

/-- C58 (`_partial`).  The same when the file wraps around any number of times, with the limits of C55 (iterators on
retained pages, no page completed while the storage page it overwrites is in the read cache). -/
theorem C58_wrapped_partial (c : Cfg) (lo K : Nat) (ops : List FOp) (rb : Page) (sm : Nat → Nat × Nat) (x : Idx)
    (hok : c.Ok K) (hB : Bounds c lo K ops.length) (h255 : c.maxRec ≤ 255) (hbm : c.useBmap = false)
    (hC : MClient c lo K (ops.map FOp.base)) (its : Nat → Option Iter)
    (hS : FSafe (fun d _ o => completes c d o → d.buffered ≠ some (d.next % c.N)) (step c) c (Data.fresh c rb sm) x its ops) :
    Spec.FaultRun (fun _ => True) (fun l => Spec.dropped c.N c.B l.pages.length) c.maxRec c.cmpData Log.empty (fun _ => none)
      (fhistory (step c) c (Data.fresh c rb sm) x its ops) := by
  refine fault_ok (lo := lo) (reader_plain (lo := lo) hok hB hbm h255) (G := FSafe _ (step c) c) ?_ ?_ ?_
    ops _ x Log.empty its _ (fresh_table hok rb sm) trivial (by simp [Log.empty]) hC (by simp [Log.all, Log.empty])
    hS (fun _ _ h => by cases h)
  · intro d x L T _
    exact T.dropped hok.B0
  · intro d x L its o ops T _ hP hC hgt hs _
    exact op_plain hok hB hbm h255 T hP hC hgt (hs.1 o rfl)
  · intro d x L its op ops d' x' its' out _ g e
    exact g.2 _ _ _ _ e

/-- C58 (`_partial`).  The same for tables with a bitmap index, where reads of index pages may fail too (`SafeOp` as in
C23). -/
theorem C58_index_partial (c : Cfg) (lo K : Nat) (ops : List FOp) (rb rb' : Page) (sm : Nat → Nat × Nat)
    (hok : c.Ok K) (hx : c.IdxOk) (hB : Bounds c lo K ops.length) (h255 : c.maxRec ≤ 255)
    (hC : MClient c lo K (ops.map FOp.base)) (its : Nat → Option Iter)
    (hS : FSafe (SafeOp c) (stepX c) c (Data.fresh c rb sm) (Idx.fresh c rb') its ops) :
    Spec.FaultRun (fun _ => True) (fun l => Spec.dropped c.N c.B l.pages.length) c.maxRec c.cmpData Log.empty (fun _ => none)
      (fhistory (stepX c) c (Data.fresh c rb sm) (Idx.fresh c rb') its ops) := by
  refine fault_ok (lo := lo) (reader_index (lo := lo) hok hx hB h255) (G := FSafe _ (stepX c) c) ?_ ?_ ?_
    ops _ _ Log.empty its _ ⟨fresh_tableX hok rb rb' sm, fresh_aligned c rb rb' sm⟩ trivial (by simp [Log.empty]) hC
    (by simp [Log.all, Log.empty]) hS (fun _ _ h => by cases h)
  · intro d x L T _
    exact T.1.table.dropped hok.B0
  · intro d x L its o ops T _ hP hC hgt hs _
    exact op_index hok hx hB h255 T.1 T.2 hP hC hgt (hs.1 o rfl)
  · intro d x L its op ops d' x' its' out _ g e
    exact g.2 _ _ _ _ e

/-! ### The hypotheses are satisfiable -/

/-- `FSafe` by evaluation. -/
def fsafe (g : Data → Idx → Op → Bool) (stp : Data → Idx → Op → Res (Data × Idx × Out)) (c : Cfg) :
    Data → Idx → (Nat → Option Iter) → List FOp → Bool
  | _, _, _, [] => true
  | d, x, its, op :: ops => (match op.base with | .op o => g d x o | _ => true) &&
    match fstep stp c d x its op with
    | .ok (d', x', its', _) => fsafe g stp c d' x' its' ops
    | _ => true

theorem fsafe_ok {g : Data → Idx → Op → Bool} {g' : Data → Idx → Op → Prop} (hg : ∀ d x o, g d x o = true → g' d x o)
    {stp : Data → Idx → Op → Res (Data × Idx × Out)} {c : Cfg} : ∀ (ops : List FOp) (d : Data) (x : Idx)
    (its : Nat → Option Iter), fsafe g stp c d x its ops = true → FSafe g' stp c d x its ops := by
  intro ops
  induction ops with
  | nil => intros; trivial
  | cons op ops ih =>
    intro d x its h
    unfold fsafe at h
    rw [Bool.and_eq_true] at h
    refine ⟨?_, ?_⟩
    · intro o ho
      have h1 := h.1
      rw [ho] at h1
      exact hg d x o h1
    · intro d' x' its' out e
      have h2 := h.2
      rw [e] at h2
      exact ih d' x' its' h2

/-- What lookups (the first byte of the data, 100: not found) and iterators (the key, 0: the end) delivered. -/
def answers (h : List (FOp × Option MOut)) : List Nat := h.filterMap fun o => match o.2 with
  | some (.row (some r)) => some r.1
  | some (.row none) => some 0
  | some (.out (.got _ (some v))) => some (v.headD 0).toNat
  | some (.out (.got _ none)) => some 100
  | _ => none

/-- Seven records (pages 0, 1 and 2 stored); page 1 cannot be read for a while. -/
def demoFaults : List FOp :=
  (mputs 1 7).map .plain ++ [.get 3 [1], .get 3 [1, 2], .get 5 [1], .plain (.op (.get 3)), .plain (.opn 0 allRows),
    .nxt 0 [1] [], .nxt 0 [1] [], .nxt 0 [1] [], .nxt 0 [0, 1] [], .nxt 0 [] [], .nxt 0 [2] [], .nxt 0 [2] [], .get 3 [], .nxt 0 [2] [], .nxt 0 [] []]
    ++ (mputs 8 1).map .plain ++ [.plain (.nxt 0), .plain (.nxt 0), .nxt 0 [0, 1, 2] [], .nxt 0 [] []]

/-- Wrapping around twice with failing reads. -/
def demoFaultsWrap : List FOp :=
  (mputs 1 3).map .plain ++ [.plain (.opn 0 allRows), .nxt 0 [0] [], .nxt 0 [] [], .nxt 0 [0] []] ++ (mputs 4 3).map .plain ++
    [.nxt 0 [0, 1] [], .nxt 0 [] [], .nxt 0 [2] []] ++ (mputs 7 3).map .plain ++
    [.nxt 0 [2] [], .nxt 0 [] [], .nxt 0 [] [], .nxt 0 [] [], .nxt 0 [3] [], .nxt 0 [] []] ++
    (mputs 10 4).map .plain ++ [.nxt 0 [] [], .nxt 0 [] [], .nxt 0 [1] [], .nxt 0 [] []]

/-- With an index file: pages of both files cannot be read for a while. -/
def demoIdxFaults : List FOp :=
  let puts (a n : Nat) : List FOp :=
    (List.range n).map fun i => .plain (.op (.put (a + i) (dat (UInt8.ofNat ((a + i - 1) % 8 * 12)))))
  puts 1 22 ++ [.get 9 [4], .plain (.op (.get 17))] ++ puts 23 4 ++ [.plain (.opn 0 ⟨none, none, none, some (dat 12)⟩), .nxt 0 [] [0], .nxt 0 [0, 1, 2, 3] [],
    .nxt 0 [] [], .nxt 0 [] [0], .nxt 0 [] [], .nxt 0 [3] []]

/-- The hypotheses of `C58_unwrapped_partial` hold for `demoFaults`, and this is what the client sees: a record on the page
that cannot be read is not found, one on another page is; the iterator stops twice and then goes on with 3. -/
example : demo.Ok 1000 ∧ Bounds demo 0 1000 demoFaults.length ∧ MClient demo 0 1000 (demoFaults.map FOp.base) ∧
    answers (fhistory (step demo) demo demo0 noIdx (fun _ => none) demoFaults) =
      [100, 100, 5, 3, 1, 2, 0, 0, 3, 4, 0, 3, 0, 5, 6, 7, 8, 0] :=
  ⟨demo_ok _, demo_bounds (by decide) (by decide), mclient_of (by decide +kernel) (by decide +kernel), by decide +kernel⟩

/-- The hypotheses of `C58_wrapped_partial` hold for `demoFaultsWrap`. -/
example : MClient demo 0 1000 (demoFaultsWrap.map FOp.base) ∧
    FSafe (fun d _ o => completes demo d o → d.buffered ≠ some (d.next % demo.N)) (step demo) demo demo0 noIdx (fun _ => none)
      demoFaultsWrap ∧
    answers (fhistory (step demo) demo demo0 noIdx (fun _ => none) demoFaultsWrap) =
      [0, 1, 2, 0, 3, 4, 0, 5, 6, 7, 8, 9, 10, 11, 12, 13] := by
  refine ⟨mclient_of (by decide +kernel) (by decide +kernel), ?_, by decide +kernel⟩
  refine fsafe_ok (g := fun d _ o => match o with
    | .put _ _ => decide (pageCount d.wbuf ≥ demo.maxRec → d.buffered ≠ some (d.next % demo.N))
    | .flush => decide (pageCount d.wbuf ≠ 0 → d.buffered ≠ some (d.next % demo.N))
    | _ => true) ?_ _ _ _ _ (by decide +kernel)
  intro d x o h
  cases o with
  | put k v => simp only [decide_eq_true_eq] at h; exact h
  | flush => simp only [decide_eq_true_eq] at h; exact h
  | get k => intro h; cases h
  | scan q => intro h; cases h

/-- The hypotheses of `C58_index_partial` hold for `demoIdxFaults`. -/
example : demoIdx.Ok 100 ∧ demoIdx.IdxOk ∧ Bounds demoIdx 0 100 demoIdxFaults.length ∧
    MClient demoIdx 0 100 (demoIdxFaults.map FOp.base) ∧
    FSafe (SafeOp demoIdx) (stepX demoIdx) demoIdx demoIdx0 demoIdxX0 (fun _ => none) demoIdxFaults ∧
    answers (fhistory (stepX demoIdx) demoIdx demoIdx0 demoIdxX0 (fun _ => none) demoIdxFaults) =
      [100, 0, 0, 17, 18, 25, 26, 0] :=
  ⟨demoIdx_ok _, demoIdx_idxOk, demoIdx_bounds (by decide) (by decide), mclient_of (by decide +kernel) (by decide +kernel),
    fsafe_ok (safeOp_ok demoIdx) _ _ _ _ (by decide +kernel), by decide +kernel⟩

end EDB
