import Verif.Proofs.Always
import Verif.Props.History

/-!
# C03, C04: the order of inserted keys
-/

namespace EDB

open Spec (Log Op Out)

/-! ## C03 -/

theorem ordered_of_lastIs {c : Cfg} {K : Nat} (hok : c.Ok K) (hK : K ≤ 256 ^ c.keySize) : ∀ (ops : List Op) (d : Data)
    (x : Idx) (acc : List Nat), (∀ op ∈ ops, op ≠ .flush) →
    (∀ k v, Op.put k v ∈ ops → k < K ∧ v.length = c.dataSize) → LastIs c d acc → (∀ a ∈ acc, a < K) →
    Spec.Ordered acc (history c d x ops) := by
  intro ops
  induction ops with
  | nil => intro d x acc _ _ _ _; exact trivial
  | cons op ops ih =>
    intro d x acc hf hp hI hacc
    have hf' : ∀ op ∈ ops, op ≠ .flush := fun op h => hf op (by simp [h])
    have hp' : ∀ k v, Op.put k v ∈ ops → k < K ∧ v.length = c.dataSize := fun k v h => hp k v (by simp [h])
    unfold history
    cases op with
    | put k v =>
      obtain ⟨hk, hd⟩ := hp k v (by simp)
      have hstep : step c d x (.put k v) = if (∀ a ∈ acc, a < k) then .ok (accepted c d k v 0, x, .code 0)
          else .ok (d, x, .code 1) := by
        simp only [step]
        rw [putD_eq hok, hI.check hok hacc hk]
        by_cases h : ∀ a ∈ acc, a < k
        · rw [if_pos h, if_pos (decide_eq_true h)]; rfl
        · rw [if_neg h, if_neg (by simpa using h)]; rfl
      by_cases h : ∀ a ∈ acc, a < k
      · rw [hstep, if_pos h]
        refine Or.inl ⟨h, rfl, ih _ _ _ hf' hp' (hI.accepted hok hK hk v 0 hd h) ?_⟩
        intro a ha
        rcases List.mem_cons.mp ha with e | e
        · omega
        · exact hacc a e
      · rw [hstep, if_neg h]
        refine Or.inr ⟨?_, ⟨1, rfl, by decide⟩, ih _ _ _ hf' hp' hI hacc⟩
        by_contra hn
        exact h fun a ha => by
          by_contra hlt
          exact hn ⟨a, ha, by omega⟩
    | flush => exact absurd rfl (hf .flush (by simp))
    | get k =>
      cases e : step c d x (.get k) with
      | ok r =>
        obtain ⟨d', x', o⟩ := r
        simp only [step] at e
        obtain ⟨⟨d1, r, out⟩, h1, e⟩ := Res.bind_eq_ok e
        cases e
        exact ih _ _ _ hf' hp' (hI.congr (get_same h1)) hacc
      | ub => exact trivial
      | fuel => exact trivial
    | scan q =>
      cases e : step c d x (.scan q) with
      | ok r =>
        obtain ⟨d', x', o⟩ := r
        simp only [step] at e
        obtain ⟨⟨d1, x1, rs⟩, h1, e⟩ := Res.bind_eq_ok e
        cases e
        exact ih _ _ _ hf' hp' (hI.congr (scanAll_same h1)) hacc
      | ub => exact trivial
      | fuel => exact trivial

/-- C03 (`_partial`: without explicit flushes).  In any history of inserts with arbitrary keys in arbitrary order, mixed
with lookups and scans, wrapping the file any number of times, an insert returns 0 exactly if its key is greater than
every key accepted before, and a non-zero code otherwise.  With flushes the claim is false: `C03_false_duplicate`,
`C03_false_descending`, `C03_false_refused`. -/
theorem C03_order_partial (c : Cfg) (K : Nat) (ops : List Op) (rb : Page) (sm : Nat → Nat × Nat) (x : Idx)
    (hok : c.Ok K) (hK : K ≤ 256 ^ c.keySize) (hf : ∀ op ∈ ops, op ≠ .flush)
    (hp : ∀ k v, Op.put k v ∈ ops → k < K ∧ v.length = c.dataSize) :
    Spec.Ordered [] (history c (Data.fresh c rb sm) x ops) := by
  refine ordered_of_lastIs hok hK ops _ x [] hf hp ⟨?_, ?_, ?_⟩ (by simp)
  · exact (InBounds.fresh hok rb sm).count
  · intro _
    have : recs c (Data.fresh c rb sm).wbuf = [] := recs_init c
    exact ⟨by rw [← recs_length c, this]; rfl, rfl⟩
  · simp

/-- A history with a repeated, a smaller and a larger key. -/
def disorder : List Op := [.put 5 (dat 1), .put 5 (dat 2), .get 5, .put 9 (dat 3), .put 7 (dat 4), .put 10 (dat 5)]

/-- It meets the hypotheses; its inserts are accepted and rejected as they should. -/
example : (∀ op ∈ disorder, op ≠ .flush) ∧ (∀ k v, Op.put k v ∈ disorder → k < 1000 ∧ v.length = demo.dataSize) ∧
    (history demo demo0 noIdx disorder).map (·.2) = [some (.code 0), some (.code 1), some (.got 0 (some (dat 1))),
      some (.code 0), some (.code 1), some (.code 0)] := by
  refine ⟨by decide, ?_, by decide +kernel⟩
  intro k v h
  simp [disorder] at h
  rcases h with ⟨rfl, rfl⟩ | ⟨rfl, rfl⟩ | ⟨rfl, rfl⟩ | ⟨rfl, rfl⟩ | ⟨rfl, rfl⟩ <;> exact ⟨by decide, rfl⟩

/-- C03 with flushes, state by state (`_partial`: excludes the state right after a flush that completed a partial page).
Whatever the history was, in a state that represents the log `L` (`Table`; `C45_sorted_storage_partial` shows that
histories lead to such states) and whose newest page is full or whose write buffer is not empty, an insert is
accepted exactly if its key is greater than every key accepted before. -/
theorem C03_state_partial (c : Cfg) (lo K : Nat) (d : Data) (L : Log) (x : Idx) (key : Nat) (data : List Byte)
    (hok : c.Ok K) (T : Table c lo K d L) (hk : key < K) (hfull : ¬ Spec.MayRefuse c.maxRec L) :
    ∃ d' r, step c d x (.put key data) = .ok (d', x, .code r) ∧ (r = 0 ↔ ∀ s ∈ L.all, s.1 < key) := by
  have hcheck : ∃ d' b, orderCheck c d key = (d', b) ∧ (b = true ↔ ∀ s ∈ L.all, s.1 < key) := by
    by_cases hb : L.buf = []
    · rcases List.eq_nil_or_concat L.pages with hp | ⟨ps, pg, hp⟩
      · refine ⟨d, true, orderCheck_empty T.sim hp hb, ?_⟩
        simp [Log.all, hp, hb]
      · rw [List.concat_eq_append] at hp
        obtain ⟨d', b, h1, _, _, h2⟩ := orderCheck_page hok T.sim hk hb hp
        refine ⟨d', b, h1, h2 ?_⟩
        by_contra hne
        exact hfull ⟨hb, ps, pg, hp, hne⟩
    · refine ⟨d, _, orderCheck_buf hok.cmp T.sim hk hb, ?_⟩
      simp
  obtain ⟨d', b, h1, h2⟩ := hcheck
  simp only [step]
  rw [putD_eq hok, h1]
  cases b with
  | true => exact ⟨_, 0, rfl, ⟨fun _ => h2.mp rfl, fun _ => rfl⟩⟩
  | false =>
    refine ⟨_, 1, rfl, ⟨fun h => absurd h (by decide), fun h => ?_⟩⟩
    have := h2.mpr h
    simp at this

/-! ## C04 -/

/-- C04, the state.  Whatever the configuration and the state: an insert rejected with code 1 leaves storage, write
buffer, counters and spline as they were; only the read cache may hold another page. -/
theorem C04_rejected_state (c : Cfg) (d d' : Data) (key : Nat) (data : List Byte) (loc : Nat) (w : Bool)
    (h : putD c d key data loc = .ok (d', 1, w)) :
    d'.dev = d.dev ∧ d'.wbuf = d.wbuf ∧ d'.next = d.next ∧ d'.min = d.min ∧ d'.avail = d.avail ∧ d'.spl = d.spl ∧
      d'.rlcNext = d.rlcNext ∧ d'.rlcStart = d.rlcStart := by
  have hd : d' = (orderCheck c d key).1 := by
    unfold putD at h
    obtain ⟨d1, b, hb⟩ : ∃ d1 b, orderCheck c d key = (d1, b) := ⟨_, _, rfl⟩
    rw [hb] at h ⊢
    cases b with
    | false =>
      simp only [Bool.false_eq_true, if_false, Res.ok.injEq, Prod.mk.injEq] at h
      exact h.1.symm
    | true =>
      exfalso
      have hcode : ∀ d2 wrote, finishPut c d2 wrote key data loc = .ok (d', 1, w) → False := by
        intro d2 wrote e
        have ht : ∀ d3, (writeTemp c d3).2 ≠ 1 := by
          intro d3
          unfold writeTemp
          simp only
          split_ifs <;> decide
        unfold finishPut at e
        simp only at e
        split_ifs at e
        · obtain ⟨d3, _, e⟩ := Res.bind_eq_ok e
          simp only [Res.ok.injEq, Prod.mk.injEq] at e
          exact ht _ e.2.1
        · simp only [Res.ok.injEq, Prod.mk.injEq] at e
          exact ht _ e.2.1
        · simp only [Res.ok.injEq, Prod.mk.injEq] at e
          exact absurd e.2.1 (by decide)
      simp only [if_true] at h
      split_ifs at h
      · obtain ⟨d3, _, e⟩ := Res.bind_eq_ok h
        exact hcode _ _ e
      · exact hcode _ _ h
  have E := orderCheck_same (c := c) d key
  rw [← hd] at E
  exact ⟨E.dev, E.wbuf, E.next, E.min, E.avail, E.spl, E.rlcNext, E.rlcStart⟩

/-- C04, what a client sees.  In every state that represents a log, after a rejected insert the state still represents
the same log, and every later lookup and every later scan gives the same result as before. -/
theorem C04_rejected_reads (c : Cfg) (lo K P : Nat) (d d' : Data) (L : Log) (x x' : Idx) (key : Nat) (data : List Byte)
    (hok : c.Ok K) (hB : Bounds c lo K P) (T : Table c lo K d L) (hP : d.next ≤ P) (hk : key < K)
    (h : step c d x (.put key data) = .ok (d', x', .code 1)) :
    Table c lo K d' L ∧
      (∀ k, k < K → c.maxRec ≤ 255 → ∃ d1 d2 o, step c d x (.get k) = .ok (d1, x, o) ∧ step c d' x (.get k) = .ok (d2, x, o)) ∧
      (∀ q, KeysOk K q → c.useBmap = false →
        ∃ d1 d2 o, step c d x (.scan q) = .ok (d1, x, o) ∧ step c d' x (.scan q) = .ok (d2, x, o)) := by
  have T' : Table c lo K d' L := by
    simp only [step] at h
    rw [putD_eq hok] at h
    split_ifs at h
    · simp only [Res.ok_bind, Res.ok.injEq, Prod.mk.injEq, Out.code.injEq] at h
      exact absurd h.2.2 (by decide)
    · simp only [Res.ok_bind, Res.ok.injEq, Prod.mk.injEq] at h
      obtain ⟨rfl, _⟩ := h
      refine T.congr (orderCheck_same d key) ?_
      by_cases hb : L.buf = []
      · rcases List.eq_nil_or_concat L.pages with hp | ⟨ps, pg, hp⟩
        · rw [orderCheck_empty T.sim hp hb]; exact T.sim
        · rw [List.concat_eq_append] at hp
          obtain ⟨d', b, h1, _, h2, _⟩ := orderCheck_page hok T.sim hk hb hp
          rw [h1]; exact h2
      · rw [orderCheck_buf hok.cmp T.sim hk hb]; exact T.sim
  have hn : d'.next = d.next := by rw [T'.sim.next, T.sim.next]
  have hmin : d'.min = d.min := by rw [T.dropped hok.B0, T'.dropped hok.B0]
  refine ⟨T', fun k hk' h255 => ?_, fun q hq hbm => ?_⟩
  · obtain ⟨d1, e1, _⟩ := T.get hok hB hP x h255 hk'
    obtain ⟨d2, e2, _⟩ := T'.get hok hB (by omega) x h255 hk'
    rw [hmin] at e2
    exact ⟨d1, d2, _, e1, e2⟩
  · obtain ⟨d1, e1, _⟩ := T.scan hok hB hP x hbm hq
    obtain ⟨d2, e2, _⟩ := T'.scan hok hB (by omega) x hbm hq
    rw [hmin] at e2
    exact ⟨d1, d2, _, e1, e2⟩

/-- A state and a rejected key: after the inserts of `demoPuts`, key 3. -/
example : (match runOps demo demo0 noIdx demoPuts with
    | .ok (d, _) => (match putD demo d 3 (dat 0) 0 with | .ok (_, r, _) => r == 1 | _ => false)
    | _ => false) = true := by
  decide +kernel

/-- It represents a log. -/
example : ∃ d, runOps demo demo0 noIdx (demoPuts ++ [Op.flush] ++ demoReads) = .ok (d, noIdx) ∧
    ∃ L, Table demo 0 1000 d L := by
  obtain ⟨d, h1, h2, _, _⟩ := runOps_ok (demo_ok 1000) (lo := 0) (P := 18) (Or.inl rfl) (demo_bounds (by decide) (by decide)) (by decide)
    (G := fun d _ ops => Phased d ops) (fun d L x op ops g _ hc => g.safe hc)
    (fun d L x op ops d' x' o g _ C e => g.step (demo_ok 1000) C e)
    (demoPuts ++ [Op.flush] ++ demoReads) demo0 noIdx Log.empty (fresh_table (demo_ok 1000) _ _) (by decide)
    demo_client (by simp [Log.all, Log.empty])
    ⟨demoPuts, [Op.flush], demoReads, rfl, by simp [demoPuts, Op.isPut], by simp, by simp [demoReads, Op.isRead],
      fun _ => rfl, fun _ => Or.inr rfl⟩
  exact ⟨d, h1, _, h2⟩

end EDB
