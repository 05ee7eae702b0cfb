import Verif.Proofs.Mixed
import Verif.Props.Index

/-!
# C55: iterators that stay open while the table grows
-/

namespace EDB

open Spec (Log Range Op Out MOp MOut setAt)

/-- C55 (`_partial`).  Any interleaving of inserts, flushes, lookups, scans, iterator openings and `embedDBNext` calls on
any number of iterators, as long as the pages fit into the file: every iterator delivers exactly the records within its
bounds that were present when it was opened followed by those inserted since, each once and in order, and reports the end
exactly when there is none left.  Lookups and scans in between are exact too.

Missing: an iterator that has reported the end may leave out records inserted afterwards (`C55_false_resume`); files that
wrap around (`C55_wrapped_partial`, `C55_false_reclaimed`). -/
theorem C55_unwrapped_partial (c : Cfg) (lo K : Nat) (ops : List MOp) (rb : Page) (sm : Nat → Nat × Nat) (x : Idx)
    (hok : c.Ok K) (hB : Bounds c lo K ops.length) (h255 : c.maxRec ≤ 255) (hbm : c.useBmap = false)
    (hC : MClient c lo K ops) (its : Nat → Option Iter) :
    Spec.MixRun (fun l => l.pages.length ≤ c.N) (fun _ => 0) c.maxRec c.cmpData Log.empty (fun _ => none)
      (mhistory (step c) c (Data.fresh c rb sm) x its ops) := by
  refine mixed_ok (lo := lo) (engine_plain (lo := lo) hok hB hbm) (G := fun _ _ _ _ => True) ?_ ?_ (fun _ _ _ _ _ _ _ _ _ _ _ _ _ => trivial)
    ops _ x Log.empty its _ (fresh_table hok rb sm) (by simp [Log.empty]) (by simp [Log.empty]) hC (by simp [Log.all, Log.empty])
    trivial (fun _ _ h => by cases h)
  · intro d x L T hl
    rw [T.dropped hok.B0]
    unfold Spec.dropped
    rw [if_pos hl]
  · intro d x L its o ops T _ hP hC hgt _ hl
    exact op_plain hok hB hbm h255 T hP hC hgt (fun hc => unwrapped_safe hok T hc hl)

/-- C55 (`_partial`).  The same when the file wraps around any number of times, for every iterator that still stands on a
retained page (`Spec.MixRun`: the page of the record it delivered last, at first the oldest page), in runs in which no
page is completed while the storage page it overwrites is in the read cache.
Missing: iterators on pages already dropped, `C55_false_reclaimed`; stale caches, `C05_false_stale_cache`. -/
theorem C55_wrapped_partial (c : Cfg) (lo K : Nat) (ops : List MOp) (rb : Page) (sm : Nat → Nat × Nat) (x : Idx)
    (hok : c.Ok K) (hB : Bounds c lo K ops.length) (h255 : c.maxRec ≤ 255) (hbm : c.useBmap = false)
    (hC : MClient c lo K ops) (its : Nat → Option Iter)
    (hS : MSafe (fun d _ o => completes c d o → d.buffered ≠ some (d.next % c.N)) (step c) c (Data.fresh c rb sm) x its ops) :
    Spec.MixRun (fun _ => True) (fun l => Spec.dropped c.N c.B l.pages.length) c.maxRec c.cmpData Log.empty (fun _ => none)
      (mhistory (step c) c (Data.fresh c rb sm) x its ops) := by
  refine mixed_ok (lo := lo) (engine_plain (lo := lo) hok hB hbm) (G := MSafe _ (step c) c) ?_ ?_ ?_
    ops _ x Log.empty its _ (fresh_table hok rb sm) trivial (by simp [Log.empty]) hC (by simp [Log.all, Log.empty])
    hS (fun _ _ h => by cases h)
  · intro d x L T _
    exact T.dropped hok.B0
  · intro d x L its o ops T _ hP hC hgt hs _
    exact op_plain hok hB hbm h255 T hP hC hgt (hs.1 o rfl)
  · intro d x L its op ops d' x' its' out _ g e
    exact g.2 _ _ _ _ e

/-- C55 (`_partial`).  The same for tables with a bitmap index, for every sound pair of bitmap functions: an index page
written while an iterator is open never makes it skip a matching record.
Missing: as in C23 flushes within an index page and stale caches (`SafeOp`), and dropped pages as above. -/
theorem C55_index_partial (c : Cfg) (lo K : Nat) (ops : List MOp) (rb rb' : Page) (sm : Nat → Nat × Nat)
    (hok : c.Ok K) (hx : c.IdxOk) (hB : Bounds c lo K ops.length) (h255 : c.maxRec ≤ 255)
    (hC : MClient c lo K ops) (its : Nat → Option Iter)
    (hS : MSafe (SafeOp c) (stepX c) c (Data.fresh c rb sm) (Idx.fresh c rb') its ops) :
    Spec.MixRun (fun _ => True) (fun l => Spec.dropped c.N c.B l.pages.length) c.maxRec c.cmpData Log.empty (fun _ => none)
      (mhistory (stepX c) c (Data.fresh c rb sm) (Idx.fresh c rb') its ops) := by
  refine mixed_ok (lo := lo) (engine_index (lo := lo) hok hx hB) (G := MSafe _ (stepX c) c) ?_ ?_ ?_
    ops _ _ Log.empty its _ ⟨fresh_tableX hok rb rb' sm, fresh_aligned c rb rb' sm⟩ trivial (by simp [Log.empty]) hC
    (by simp [Log.all, Log.empty]) hS (fun _ _ h => by cases h)
  · intro d x L T _
    exact T.1.table.dropped hok.B0
  · intro d x L its o ops T _ hP hC hgt hs _
    exact op_index hok hx hB h255 T.1 T.2 hP hC hgt (hs.1 o rfl)
  · intro d x L its op ops d' x' its' out _ g e
    exact g.2 _ _ _ _ e

/-- C55 (`_partial`).  Tables with an index while everything fits: any interleaving of inserts, lookups, scans and any
number of iterators; no assumption about the state.  Missing: flushes (`C23_false_flush`) and the limits above. -/
theorem C55_index_unwrapped_partial (c : Cfg) (lo K : Nat) (ops : List MOp) (rb rb' : Page) (sm : Nat → Nat × Nat)
    (hok : c.Ok K) (hx : c.IdxOk) (hB : Bounds c lo K ops.length) (h255 : c.maxRec ≤ 255)
    (hC : MClient c lo K ops) (hf : MOp.op .flush ∉ ops) (its : Nat → Option Iter) :
    Spec.MixRun (fun l => l.pages.length ≤ c.N ∧ l.pages.length ≤ c.numIdx * c.maxIdx) (fun _ => 0) c.maxRec c.cmpData
      Log.empty (fun _ => none) (mhistory (stepX c) c (Data.fresh c rb sm) (Idx.fresh c rb') its ops) := by
  refine mixed_ok (lo := lo) (engine_index (lo := lo) hok hx hB) (G := fun _ _ _ ops => MOp.op .flush ∉ ops) ?_ ?_ ?_
    ops _ _ Log.empty its _ ⟨fresh_tableX hok rb rb' sm, fresh_aligned c rb rb' sm⟩ (by simp [Log.empty]) (by simp [Log.empty]) hC
    (by simp [Log.all, Log.empty]) hf (fun _ _ h => by cases h)
  · intro d x L T hl
    rw [T.1.table.dropped hok.B0]
    unfold Spec.dropped
    rw [if_pos hl.1]
  · intro d x L its o ops T _ hP hC hgt g hl
    refine op_index hok hx hB h255 T.1 T.2 hP hC hgt (unwrappedX_safe hok hx T.1 ?_ hl.1 hl.2)
    rintro rfl
    exact g (by simp)
  · intro d x L its op ops d' x' its' out _ g _ h
    exact g (by simp [h])

/-! ### The hypotheses are satisfiable -/

/-- `MSafe` by evaluation. -/
def msafe (g : Data → Idx → Op → Bool) (stp : Data → Idx → Op → Res (Data × Idx × Out)) (c : Cfg) :
    Data → Idx → (Nat → Option Iter) → List MOp → Bool
  | _, _, _, [] => true
  | d, x, its, op :: ops => (match op with | .op o => g d x o | _ => true) &&
    match mstep stp c d x its op with
    | .ok (d', x', its', _) => msafe g stp c d' x' its' ops
    | _ => true

theorem msafe_ok {g : Data → Idx → Op → Bool} {g' : Data → Idx → Op → Prop} (hg : ∀ d x o, g d x o = true → g' d x o)
    {stp : Data → Idx → Op → Res (Data × Idx × Out)} {c : Cfg} : ∀ (ops : List MOp) (d : Data) (x : Idx)
    (its : Nat → Option Iter), msafe g stp c d x its ops = true → MSafe g' stp c d x its ops := by
  intro ops
  induction ops with
  | nil => intros; trivial
  | cons op ops ih =>
    intro d x its h
    unfold msafe at h
    rw [Bool.and_eq_true] at h
    refine ⟨?_, ?_⟩
    · rintro o rfl
      exact hg d x o h.1
    · intro d' x' its' out e
      have h2 := h.2
      rw [e] at h2
      exact ih d' x' its' h2

/-- Inserts of the keys `a`, ..., `a + n - 1`. -/
def mputs (a n : Nat) : List MOp := (List.range n).map fun i => .op (.put (a + i) (dat (UInt8.ofNat (a + i))))

/-- What the iterators delivered (0: the end). -/
def delivered (h : List (MOp × Option MOut)) : List Nat := h.filterMap fun o => match o.2 with
  | some (.row (some r)) => some r.1
  | some (.row none) => some 0
  | _ => none

/-- Two iterators read while records arrive: no wrap-around. -/
def demoGrow : List MOp :=
  mputs 1 3 ++ [.opn 0 allRows, .opn 1 ⟨some 3, some 5, none, none⟩, .nxt 0, .nxt 1] ++ mputs 4 3 ++
    [.nxt 0, .op (.get 5), .nxt 1, .op .flush, .nxt 0, .nxt 0, .nxt 1, .nxt 1, .nxt 0, .nxt 0, .nxt 0]

theorem mclient_of {c : Cfg} {lo K : Nat} {ops : List MOp}
    (h1 : (Spec.offered (Spec.plainOps ops)).Pairwise (· < ·))
    (h2 : (ops.all fun o => match o with
      | .op (.put k v) => decide (lo ≤ k ∧ k < K ∧ v.length = c.dataSize)
      | .op (.get k) => decide (k < K)
      | .op .flush => true
      | .op (.scan q) => q.minKey.all (· < K) && q.maxKey.all (· < K)
      | .opn _ q => q.minKey.all (· < K) && q.maxKey.all (· < K)
      | .nxt _ => true) = true) : MClient c lo K ops := by
  have hmem : ∀ (ops : List MOp) (o : Op), o ∈ Spec.plainOps ops → MOp.op o ∈ ops := by
    intro ops
    induction ops with
    | nil => intro o h; cases h
    | cons a t ih =>
      intro o h
      cases a with
      | op b =>
        rcases List.mem_cons.mp h with rfl | h
        · simp
        · exact List.mem_cons_of_mem _ (ih o h)
      | opn i q => exact List.mem_cons_of_mem _ (ih o h)
      | nxt i => exact List.mem_cons_of_mem _ (ih o h)
  have hkeys : ∀ q : Range, (q.minKey.all (· < K) && q.maxKey.all (· < K)) = true → KeysOk K q := by
    intro q h
    rw [Bool.and_eq_true] at h
    refine ⟨fun k hk => ?_, fun k hk => ?_⟩
    · have := h.1; rw [hk] at this; simpa using this
    · have := h.2; rw [hk] at this; simpa using this
  rw [List.all_eq_true] at h2
  refine ⟨⟨h1, ?_, ?_, ?_⟩, ?_⟩
  · intro k v h
    simpa using h2 _ (hmem _ _ h)
  · intro k h
    simpa using h2 _ (hmem _ _ h)
  · intro q h
    exact hkeys q (h2 _ (hmem _ _ h))
  · intro i q h
    exact hkeys q (h2 _ h)

/-- The hypotheses of `C55_unwrapped_partial` hold for it, the limit is never exceeded, and the rows are those. -/
example : demo.Ok 1000 ∧ Bounds demo 0 1000 demoGrow.length ∧ MClient demo 0 1000 demoGrow ∧
    delivered (mhistory (step demo) demo demo0 noIdx (fun _ => none) demoGrow) = [1, 3, 2, 4, 3, 4, 5, 0, 5, 6, 0] := by
  refine ⟨demo_ok _, demo_bounds (by decide) (by decide), mclient_of (by decide +kernel) (by decide +kernel), by decide +kernel⟩

/-- An iterator that keeps up with a file that wraps around twice. -/
def demoFollow : List MOp :=
  mputs 1 3 ++ [.opn 0 allRows, .nxt 0, .nxt 0] ++ mputs 4 3 ++ [.nxt 0, .nxt 0] ++ mputs 7 3 ++ [.nxt 0, .nxt 0, .nxt 0, .nxt 0] ++
    mputs 10 4 ++ [.nxt 0, .nxt 0, .nxt 0, .nxt 0] ++ mputs 14 4 ++ [.nxt 0, .nxt 0, .nxt 0, .nxt 0, .nxt 0, .nxt 0]

/-- The hypotheses of `C55_wrapped_partial` hold for it; every record is delivered although the first four pages have been
dropped. -/
example : MClient demo 0 1000 demoFollow ∧
    MSafe (fun d _ o => completes demo d o → d.buffered ≠ some (d.next % demo.N)) (step demo) demo demo0 noIdx (fun _ => none)
      demoFollow ∧
    delivered (mhistory (step demo) demo demo0 noIdx (fun _ => none) demoFollow) =
      [1, 2, 3, 4, 5, 6, 7, 8, 9, 10, 11, 12, 13, 14, 15, 16, 17, 0] := by
  refine ⟨mclient_of (by decide +kernel) (by decide +kernel), ?_, by decide +kernel⟩
  refine msafe_ok (g := fun d _ o => match o with
    | .put _ _ => decide (pageCount d.wbuf ≥ demo.maxRec → d.buffered ≠ some (d.next % demo.N))
    | .flush => decide (pageCount d.wbuf ≠ 0 → d.buffered ≠ some (d.next % demo.N))
    | _ => true) ?_ _ _ _ _ (by decide +kernel)
  intro d x o h
  cases o with
  | put k v => simp only [decide_eq_true_eq] at h; exact h
  | flush => simp only [decide_eq_true_eq] at h; exact h
  | get k => intro h; cases h
  | scan q => intro h; cases h

/-- A table with an index: the index page is written while an iterator for small values is open; then its bitmaps tell it
to skip page 9. -/
def demoIdxFollow : List MOp :=
  let puts (a n : Nat) : List MOp := (List.range n).map fun i => .op (.put (a + i) (dat (UInt8.ofNat ((a + i - 1) % 8 * 12))))
  puts 1 2 ++ [.opn 0 ⟨none, none, none, some (dat 12)⟩, .nxt 0, .nxt 0] ++ puts 3 8 ++ [.nxt 0, .nxt 0] ++ puts 11 4 ++
    [.op (.get 9)] ++ puts 15 4 ++ [.nxt 0, .nxt 0] ++ puts 19 4 ++ [.op (.get 17)] ++ puts 23 4 ++ [.nxt 0, .nxt 0, .nxt 0]

/-- `SafeOp` by evaluation. -/
def safeOp (c : Cfg) (d : Data) (x : Idx) : Op → Bool
  | .put _ _ => decide (pageCount d.wbuf ≥ c.maxRec → d.buffered ≠ some (d.next % c.N) ∧
      (pageCount x.wbuf ≥ c.maxIdx → x.buffered ≠ some (x.next % c.numIdx)))
  | .flush => decide (pageCount d.wbuf ≠ 0 → d.buffered ≠ some (d.next % c.N) ∧ x.buffered ≠ some (x.next % c.numIdx) ∧
      pageCount x.wbuf + 1 = c.maxIdx)
  | _ => true

theorem safeOp_ok (c : Cfg) (d : Data) (x : Idx) (o : Op) (h : safeOp c d x o = true) : SafeOp c d x o := by
  cases o with
  | put k v => simp only [safeOp, decide_eq_true_eq] at h; exact h
  | flush => simp only [safeOp, decide_eq_true_eq] at h; exact h
  | get k => trivial
  | scan q => trivial

/-- The hypotheses of `C55_index_partial` hold for it. -/
example : demoIdx.Ok 100 ∧ demoIdx.IdxOk ∧ MClient demoIdx 0 100 demoIdxFollow ∧
    MSafe (SafeOp demoIdx) (stepX demoIdx) demoIdx demoIdx0 demoIdxX0 (fun _ => none) demoIdxFollow ∧
    delivered (mhistory (stepX demoIdx) demoIdx demoIdx0 demoIdxX0 (fun _ => none) demoIdxFollow) =
      [1, 2, 9, 10, 17, 18, 25, 26, 0] :=
  ⟨demoIdx_ok _, demoIdx_idxOk, mclient_of (by decide +kernel) (by decide +kernel),
    msafe_ok (safeOp_ok demoIdx) _ _ _ _ (by decide +kernel), by decide +kernel⟩

end EDB
