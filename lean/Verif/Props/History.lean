import Verif.Proofs.DemoOk

/-!
# C01, C02: lookups and scans over whole client histories

`Spec.Run` relates every result a client observes to an abstract log of records; the theorems say it holds for the
model of the library started on a new file.
-/

namespace EDB

open Spec (Log Op Out)

/-- C01 (`_partial`: see below).  For every configuration of a plain spline-mode table (`Cfg.Ok`), every client that
offers ascending keys and well-sized data (`Client`), every content of the uninitialised read buffer and spline
memory: as long as the pages fit into the file, every lookup and every scan gives exactly what the log of all inserted
records gives, every flush returns 0, every insert returns 0 or is refused in the one situation C03 describes.

Missing: `maxRec ≤ 255` (with more records per page the claim is false, `C40_false_slot255`); configurations whose
header fields overlap the records (`Cfg.Layout`; false by C22), tiny pages (`Cfg.page`; C10), binary-search mode (C16),
record-level consistency, and key ranges/page counts for which the spline's 64-bit products overflow (`Bounds`). -/
theorem C01_unwrapped_partial (c : Cfg) (lo K : Nat) (ops : List Op) (rb : Page) (sm : Nat → Nat × Nat) (x : Idx)
    (hok : c.Ok K) (hB : Bounds c lo K ops.length) (h255 : c.maxRec ≤ 255) (hC : Client c lo K ops) :
    Spec.Run (fun l => l.pages.length ≤ c.N) Log.all c.maxRec c.cmpData Log.empty
      (history c (Data.fresh c rb sm) x ops) := by
  refine history_ok (m := 0) hok (Or.inl rfl) (dvd_zero _) hB h255 (G := fun _ _ _ => True) ?_ ?_ ?_ ops _ x Log.empty (fresh_table hok rb sm) ?_ ?_ hC ?_ trivial
  · intro l hl
    unfold Spec.dropped
    rw [if_pos hl, Nat.max_self, Log_live_zero]
  · intro d L x op ops _ T hl hc
    exact unwrapped_safe hok T hc hl
  · intros; trivial
  · simp [Log.empty]
  · simp [Data.fresh]
  · simp [Log.all, Log.empty]

/-- C02 (`_partial`).  The same when the file has wrapped any number of times, with the records of the pages not yet
dropped, for histories in which no page is completed while the storage page it overwrites is the one in the read cache
(`NoStale`).  Without that hypothesis the claim is false: `C02_false_stale_cache`. -/
theorem C02_wrapped_partial (c : Cfg) (lo K : Nat) (ops : List Op) (rb : Page) (sm : Nat → Nat × Nat) (x : Idx)
    (hok : c.Ok K) (hB : Bounds c lo K ops.length) (h255 : c.maxRec ≤ 255) (hC : Client c lo K ops)
    (hS : NoStale c (Data.fresh c rb sm) x ops) :
    Spec.Run (fun _ => True) (fun l => l.live (Spec.dropped c.N c.B l.pages.length)) c.maxRec c.cmpData Log.empty
      (history c (Data.fresh c rb sm) x ops) := by
  refine history_ok (m := 0) hok (Or.inl rfl) (dvd_zero _) hB h255 (G := fun d x ops => NoStale c d x ops) ?_ ?_ ?_ ops _ x Log.empty (fresh_table hok rb sm)
    trivial ?_ hC ?_ hS
  · intro l _; rw [Nat.zero_max]
  · intro d L x op ops g _ _ hc
    exact g.1 hc
  · intro d L x op ops d' x' o g _ _ e
    exact g.2 d' x' o e
  · simp [Data.fresh]
  · simp [Log.all, Log.empty]

/-- C02 for clients that first insert (wrapping the file any number of times), then possibly flush, then read: no
assumption on the cache is needed. -/
theorem C02_insert_then_read_partial (c : Cfg) (lo K : Nat) (puts flushes reads : List Op) (rb : Page)
    (sm : Nat → Nat × Nat) (x : Idx) (hok : c.Ok K) (hB : Bounds c lo K (puts ++ flushes ++ reads).length)
    (h255 : c.maxRec ≤ 255) (hC : Client c lo K (puts ++ flushes ++ reads)) (hp : ∀ op ∈ puts, op.isPut)
    (hf : ∀ op ∈ flushes, op = .flush) (hr : ∀ op ∈ reads, op.isRead) :
    Spec.Run (fun _ => True) (fun l => l.live (Spec.dropped c.N c.B l.pages.length)) c.maxRec c.cmpData Log.empty
      (history c (Data.fresh c rb sm) x (puts ++ flushes ++ reads)) :=
  C02_wrapped_partial c lo K _ rb sm x hok hB h255 hC
    (NoStale.of_phased hok _ _ _ ⟨puts, flushes, reads, rfl, hp, hf, hr, fun _ => rfl, fun _ => Or.inr rfl⟩ hC)

/-! ### The hypotheses are satisfiable -/

/-- Twelve inserts (pages 0-4 completed, so the file of 4 pages has wrapped), a flush, lookups and a scan. -/
def demoPuts : List Op := (List.range 12).map fun i => .put (i + 1) (dat (UInt8.ofNat i))

/-- Reads after them. -/
def demoReads : List Op := [.get 1, .get 5, .get 12, .get 13, .scan ⟨some 6, some 8, none, none⟩]

theorem demo_client : Client demo 0 1000 (demoPuts ++ [Op.flush] ++ demoReads) where
  asc := by decide +kernel
  put k v h := by
    simp only [demoPuts, demoReads, List.mem_append, List.mem_map, List.mem_range, List.mem_cons] at h
    rcases h with (⟨i, hi, e⟩ | h) | h
    · cases e
      refine ⟨Nat.zero_le _, by omega, rfl⟩
    · simp at h
    · simp at h
  get k h := by
    simp only [demoPuts, demoReads, List.mem_append, List.mem_map, List.mem_range, List.mem_cons] at h
    rcases h with (⟨i, hi, e⟩ | h) | h
    · cases e
    · simp at h
    · simp at h; omega
  scan q h := by
    simp only [demoPuts, demoReads, List.mem_append, List.mem_map, List.mem_range, List.mem_cons] at h
    rcases h with (⟨i, hi, e⟩ | h) | h
    · cases e
    · simp at h
    · simp at h
      subst h
      exact ⟨⟨by simp, by simp⟩, rfl⟩

/-- The hypotheses of C01/C02 hold of this history, … -/
example : demo.Ok 1000 ∧ Bounds demo 0 1000 (demoPuts ++ [Op.flush] ++ demoReads).length ∧ demo.maxRec ≤ 255 ∧
    Client demo 0 1000 (demoPuts ++ [Op.flush] ++ demoReads) ∧
    NoStale demo demo0 noIdx (demoPuts ++ [Op.flush] ++ demoReads) :=
  ⟨demo_ok _, demo_bounds (by decide) (by decide), by decide, demo_client,
    NoStale.of_phased (K := 1000) (lo := 0) (demo_ok _) _ _ _ ⟨demoPuts, [Op.flush], demoReads, rfl, by
      simp [demoPuts, Op.isPut], by simp, by simp [demoReads, Op.isRead], fun _ => rfl, fun _ => Or.inr rfl⟩ demo_client⟩

/-- … and this is what its reads observe: key 1 has been dropped with the block of pages 0 and 1. -/
example : (history demo demo0 noIdx (demoPuts ++ [Op.flush] ++ demoReads)).drop 13 =
    [(.get 1, some (.got (-1) none)), (.get 5, some (.got 0 (some (dat 4)))), (.get 12, some (.got 0 (some (dat 11)))),
     (.get 13, some (.got (-1) none)),
     (.scan ⟨some 6, some 8, none, none⟩, some (.rows [(6, dat 5), (7, dat 6), (8, dat 7)]))] := by
  decide +kernel

end EDB
