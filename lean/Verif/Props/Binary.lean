import Verif.Proofs.Binary
import Verif.Props.History

/-!
# C16, C44: binary-search mode

`EMBEDDB_USE_BINARY_SEARCH` replaces the spline by a bisection over the pages.
-/

namespace EDB

open Spec (Log Op Out Inspected)

/-- C16 (`_partial`).  For every plain table in binary-search mode (`plainOf c` is the same configuration in spline
mode) and every client: each operation that returns, returns what the abstract log says, up to the first operation whose
behaviour is undefined.  Missing: lookups of stored records can be undefined (`C16_false`, and exactly when:
`C16_stored_partial`), scans always are (`C44_false_scan`). -/
theorem C16_returned_partial (c : Cfg) (lo K : Nat) (ops : List Op) (rb : Page) (sm : Nat → Nat × Nat) (x : Idx)
    (hok : (plainOf c).Ok K) (hbs : c.binSearch = true) (hB : Bounds c lo K ops.length) (h31 : ops.length ≤ 2 ^ 31)
    (h255 : c.maxRec ≤ 255) (hC : Client c lo K ops) (hS : NoStale c (Data.fresh c rb sm) x ops) :
    Spec.Run (fun _ => True) (fun l => l.live (Spec.dropped c.N c.B l.pages.length)) c.maxRec c.cmpData Log.empty
      ((history c (Data.fresh c rb sm) x ops).takeWhile (·.2.isSome)) := by
  refine bin_history hok hbs hB h31 h255 (fun _ _ => rfl) (G := fun d x ops => NoStale c d x ops) ?_ ?_ ops _ x Log.empty
    (BinTable.fresh hok rb sm) trivial ?_ hC ?_ hS
  · intro d L x op ops g _ _ hc
    exact g.1 hc
  · intro d x op ops d' x' o g e
    exact g.2 d' x' o e
  · simp [Data.fresh]
  · simp [Log.all, Log.empty]

/-- C16 while the pages fit into the file: no assumption on the cache. -/
theorem C16_returned_unwrapped_partial (c : Cfg) (lo K : Nat) (ops : List Op) (rb : Page) (sm : Nat → Nat × Nat) (x : Idx)
    (hok : (plainOf c).Ok K) (hbs : c.binSearch = true) (hB : Bounds c lo K ops.length) (h31 : ops.length ≤ 2 ^ 31)
    (h255 : c.maxRec ≤ 255) (hC : Client c lo K ops) :
    Spec.Run (fun l => l.pages.length ≤ c.N) Log.all c.maxRec c.cmpData Log.empty
      ((history c (Data.fresh c rb sm) x ops).takeWhile (·.2.isSome)) := by
  refine bin_history hok hbs hB h31 h255 ?_ (G := fun _ _ _ => True) ?_ ?_ ops _ x Log.empty
    (BinTable.fresh hok rb sm) ?_ ?_ hC ?_ trivial
  · intro l hl
    unfold Spec.dropped
    rw [if_pos hl, Log_live_zero]
  · intro d L x op ops _ T hl hc
    obtain ⟨s, Ts⟩ := T.table
    have hc' : completes (plainOf c) (withSpl d s) op := by cases op <;> exact hc
    exact unwrapped_safe (d := withSpl d s) hok Ts hc' hl
  · intros; trivial
  · simp [Log.empty]
  · simp [Data.fresh]
  · simp [Log.all, Log.empty]

/-- C16, exactly which stored records are found (`_partial`: the claim is about all of them).  After every history that
returned, a record on retained page `t` is found exactly if a bisection of the retained pages inspects `t` before its
interval has shrunk to one page; otherwise the lookup has undefined behaviour. -/
theorem C16_stored_partial (c : Cfg) (lo K : Nat) (ops : List Op) (rb : Page) (sm : Nat → Nat × Nat) (x x' : Idx) (d : Data)
    (hok : (plainOf c).Ok K) (hbs : c.binSearch = true) (hB : Bounds c lo K ops.length) (h31 : ops.length ≤ 2 ^ 31)
    (h255 : c.maxRec ≤ 255) (hC : Client c lo K ops) (hS : NoStale c (Data.fresh c rb sm) x ops)
    (hrun : runOps c (Data.fresh c rb sm) x ops = .ok (d, x')) :
    let l := Spec.logAfter c.maxRec Log.empty (history c (Data.fresh c rb sm) x ops)
    let m := Spec.dropped c.N c.B l.pages.length
    ∀ t, m ≤ t → ∀ (ht : t < l.pages.length), ∀ r ∈ l.pages[t],
      (Inspected m (l.pages.length - 1) t → ∃ d', get c d r.1 = .ok (d', 0, some r.2)) ∧
      (¬ Inspected m (l.pages.length - 1) t → get c d r.1 = .ub) := by
  intro l m t hm ht r hr
  obtain ⟨T, hP⟩ := bin_run hok hbs hB h31 h255 (G := fun d x ops => NoStale c d x ops) (fun d L x op ops g _ hc => g.1 hc)
    (fun d x op ops d' x' o g e => g.2 d' x' o e) ops _ x Log.empty d x' (BinTable.fresh hok rb sm) (by simp [Data.fresh]) hC
    (by simp [Log.all, Log.empty]) hS hrun
  obtain ⟨s, Ts⟩ := T.table
  have hdrop : d.min = m := Ts.dropped hok.B0
  have hnext : d.next = l.pages.length := Ts.sim.next
  have h := get_bin_stored (c := c) hok.cmp hok.N0 hbs Ts.sim.unplain (show d.next ≤ 2 ^ 31 by omega) (by
    intro i hi
    have : _ ≤ c.maxRec := Ts.cap.2
    omega) (t := t) (by rw [← hdrop] at hm; exact hm) ht hr
  rw [get_withSpl hbs] at h
  have e1 : (withSpl d s).min = m := hdrop
  have e2 : (withSpl d s).next = l.pages.length := hnext
  rw [e1, e2] at h
  rcases h with ⟨i, d', j⟩ | ⟨i, j⟩
  · refine ⟨fun _ => ?_, fun h => absurd i h⟩
    obtain ⟨⟨d1, r1, o1⟩, f1, f2⟩ := Res.bind_eq_ok j
    simp only [Res.ok.injEq, Prod.mk.injEq] at f2
    rw [f1, f2.2.1, f2.2.2]
    exact ⟨d1, rfl⟩
  · refine ⟨fun h => absurd h i, fun _ => ?_⟩
    cases e : get c d r.1 with
    | ub => rfl
    | fuel => rw [e] at j; cases j
    | ok y => rw [e] at j; cases j

/-- C44 (`_partial`: writes only).  In every state of a table in binary-search mode an insert is undefined exactly if it
completes a page, the file is full and the spline is to be cleaned. -/
theorem C44_put_partial (c : Cfg) (d : Data) (x : Idx) (k : Nat) (v : List Byte) (hbs : c.binSearch = true)
    (hrlc : c.rlc = false) (hio : ∀ n, c.ioOk n = true) :
    step c d x (.put k v) = .ub ↔
      (orderCheck c d k).2 = true ∧ pageCount d.wbuf ≥ c.maxRec ∧ d.avail = 0 ∧ c.noClean = false := by
  have E := orderCheck_same (c := c) d k
  simp only [step]
  unfold putD
  obtain ⟨d1, b, h⟩ : ∃ d1 b, orderCheck c d k = (d1, b) := ⟨_, _, rfl⟩
  rw [h] at E
  rw [h]
  simp only at E
  simp only
  have fin : ∀ (X : Data) (w : Bool), finishPut c X w k v 0 = .ok ({ X with wbuf := appendRec c X.wbuf k v 0 }, 0, w) := by
    intro X w
    unfold finishPut
    simp only [hrlc, Bool.false_eq_true, if_false]
  rw [← E.wbuf, ← E.avail]
  cases b with
  | false => simp
  | true =>
    simp only [if_true, true_and]
    by_cases hf : pageCount d1.wbuf ≥ c.maxRec
    · rw [if_pos hf, putPage_bin hio hbs d1 d1.spl]
      by_cases hx : cleans c d1
      · rw [if_pos hx]
        exact ⟨fun _ => ⟨hf, hx⟩, fun _ => rfl⟩
      · rw [if_neg hx, Res.ok_bind, fin, Res.ok_bind]
        exact ⟨(fun h => by cases h), fun h => absurd h.2 hx⟩
    · rw [if_neg hf, fin, Res.ok_bind]
      exact ⟨(fun h => by cases h), fun h => absurd h.1 hf⟩

/-- … and a flush exactly if the buffer is not empty, the file is full and the spline is to be cleaned. -/
theorem C44_flush_partial (c : Cfg) (d : Data) (x : Idx) (hbs : c.binSearch = true) (hio : ∀ n, c.ioOk n = true) :
    step c d x .flush = .ub ↔ pageCount d.wbuf ≠ 0 ∧ d.avail = 0 ∧ c.noClean = false := by
  simp only [step]
  rw [flushD_bin hio hbs d d.spl]
  by_cases h0 : pageCount d.wbuf < 1
  · rw [if_pos h0, Res.ok_bind]
    exact ⟨(fun h => by cases h), fun h => by omega⟩
  · rw [if_neg h0]
    by_cases hx : cleans c d
    · rw [if_pos hx]
      exact ⟨fun _ => ⟨by omega, hx⟩, fun _ => rfl⟩
    · rw [if_neg hx, Res.ok_bind]
      exact ⟨(fun h => by cases h), fun h => absurd h.2 hx⟩

/-! ### The hypotheses are satisfiable -/

/-- The demo table in binary-search mode, without spline cleaning. -/
def demoBin : Cfg := { demo with binSearch := true, noClean := true }

theorem demoBin_ok (K : Nat) : (plainOf demoBin).Ok K :=
  ⟨by decide, by decide, by decide, by decide, by decide, by decide, by decide, ⟨by decide, by decide, fun _ _ h => h⟩,
    demo_cmp K, rfl, rfl, fun _ => rfl⟩

/-- Twelve inserts and a flush wrap the file; pages 2 to 5 are retained; the record 7 is on page 3, which the bisection
inspects first, the record 11 on page 5, which it never compares. -/
example :
    history demoBin demo0 noIdx (demoPuts ++ [.flush, .get 7, .get 11]) =
      history demoBin demo0 noIdx (demoPuts ++ [.flush]) ++
        [(.get 7, some (.got 0 (some (dat 6)))), (.get 11, none)] ∧
    (Spec.logAfter 2 Log.empty (history demoBin demo0 noIdx (demoPuts ++ [.flush]))).pages.length = 6 ∧
    (history demoBin demo0 noIdx (demoPuts ++ [.flush])).all (·.2 == some (.code 0)) = true := by
  decide +kernel

example : Inspected 2 5 3 ∧ Inspected 2 5 4 ∧ ¬ Inspected 2 5 2 ∧ ¬ Inspected 2 5 5 := by
  refine ⟨.here (by decide), .right (by decide) (by decide) (.here (by decide)), ?_, ?_⟩
  · rw [inspected_iff]; simp; rw [inspected_iff]; simp
  · rw [inspected_iff]; simp; rw [inspected_iff]; simp; rw [inspected_iff]; simp

/-- `NoStale` as a test. -/
def noStaleB (c : Cfg) : Data → Idx → List Op → Bool
  | _, _, [] => true
  | d, x, op :: ops =>
    ((match op with
      | .put _ _ => decide (pageCount d.wbuf < c.maxRec)
      | .flush => decide (pageCount d.wbuf = 0)
      | _ => true) || decide (d.buffered ≠ some (d.next % c.N)))
    && match step c d x op with
      | .ok (d', x', _) => noStaleB c d' x' ops
      | _ => true

theorem noStaleB_ok (c : Cfg) : ∀ (ops : List Op) (d : Data) (x : Idx), noStaleB c d x ops = true → NoStale c d x ops := by
  intro ops
  induction ops with
  | nil => intro d x _; exact trivial
  | cons op ops ih =>
    intro d x h
    unfold noStaleB at h
    rw [Bool.and_eq_true, Bool.or_eq_true] at h
    refine ⟨?_, ?_⟩
    · intro hc hb
      rcases h.1 with h1 | h1
      · cases op with
        | put k v => simp only [completes] at hc; simp only [decide_eq_true_eq] at h1; omega
        | flush => simp only [completes] at hc; simp only [decide_eq_true_eq] at h1; omega
        | get k => exact hc
        | scan q => exact hc
      · exact of_decide_eq_true h1 hb
    · intro d' x' o e
      rw [e] at h
      exact ih d' x' h.2

theorem demoBin_client : Client demoBin 0 1000 (demoPuts ++ [Op.flush]) where
  asc := by decide +kernel
  put k v h := by
    simp only [demoPuts, List.mem_append, List.mem_map, List.mem_range, List.mem_cons] at h
    rcases h with ⟨i, hi, e⟩ | h
    · cases e
      refine ⟨Nat.zero_le _, by omega, rfl⟩
    · simp at h
  get k h := by simp [demoPuts] at h
  scan q h := by simp [demoPuts] at h

/-- The hypotheses of the history theorems. -/
example : Client demoBin 0 1000 (demoPuts ++ [Op.flush]) ∧ NoStale demoBin demo0 noIdx (demoPuts ++ [Op.flush]) ∧
    (plainOf demoBin).Ok 1000 ∧ demoBin.binSearch = true ∧
    Bounds demoBin 0 1000 (demoPuts ++ [Op.flush]).length ∧ demoBin.maxRec ≤ 255 ∧
    (runOps demoBin demo0 noIdx (demoPuts ++ [Op.flush])).isOk = true :=
  ⟨demoBin_client, noStaleB_ok _ _ _ _ (by decide +kernel), demoBin_ok _, rfl, ⟨by decide +kernel, by decide, by decide⟩, by decide, by decide +kernel⟩

end EDB
