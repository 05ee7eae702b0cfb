import Verif.Proofs.Distribution
import Verif.Props.Estimate

/-!
# C71: the single-file distribution behaves like the library

False for opening a file when keys have more than 4 bytes: Findings/Distribution.lean.
-/

namespace EDB

open Spec (Log Op Out Rnd)

/-- C71 for opening a file (`_partial`: keys of at most 4 bytes; every page on file that carries the number of its place
has at least one record and at most as many as fit).  The distribution does exactly what the library does, whether that is defined
or not, in every rounding mode. -/
theorem C71_open_partial (r : Rnd 24) (c : Cfg) (M : Nat) (v : Dev) (rb : Page) (sm : Nat → Nat × Nat) (h4 : c.keySize ≤ 4)
    (hM : c.pageSize ≤ M) (h32 : c.pageSize < 2 ^ 32)
    (hpg : ∀ i p, v.file i = some p → Spec.pageNo p % c.N = i →
      0 < (Spec.pageRecs c.hdr c.recSize c.keySize c.dataSize p).length ∧
      (Spec.pageRecs c.hdr c.recSize c.keySize c.dataSize p).length ≤ c.maxRec) :
    recoverPlainD r c M (Data.opening c v rb sm) = recoverPlainF r c (Data.opening c v rb sm) := by
  apply recoverWith_congr
  · intro b hb; simp [Data.opening, Data.fresh] at hb
  · intro i p hp hid
    obtain ⟨h1, h2⟩ := hpg i p hp (by rw [← pageId_spec]; exact hid)
    rw [← recs_spec, recs_length] at h1 h2
    exact getMaxErrD_eq hM h32 (by rw [if_pos h4]; exact h1) (by rw [if_pos h4]; exact h2)

/-- C71 for lookups (`_partial`: spline search, the setting of C61 for lookups; keys of up to 8 bytes).  After every history, the
lookup of the distribution is that of the library, and answers from the records retained. -/
theorem C71_lookup_partial (r : Rnd 24) (c : Cfg) (M lo K : Nat) (ops : List Op) (rb : Page) (sm : Nat → Nat × Nat) (x : Idx)
    (hM : c.pageSize ≤ M) (h32 : c.pageSize < 2 ^ 32)
    (hE : Estimates r c) (hok : c.Ok K) (hB : Bounds c lo K ops.length) (h8 : c.keySize ≤ 8) (h255 : c.maxRec ≤ 255)
    (hC : Client c lo K ops) (hS : NoStale c (Data.fresh c rb sm) x ops) :
    ∃ d L, runOps c (Data.fresh c rb sm) x ops = .ok (d, x) ∧
      L = Spec.logAfter c.maxRec Log.empty (history c (Data.fresh c rb sm) x ops) ∧
      ∀ key, key < K → (L.pages = [] → L.buf ≠ [] → (∃ a ∈ L.buf, a.1 ≤ key) ∧ ∃ b ∈ L.buf, key ≤ b.1) →
        getD r c M d key = getF r c d key ∧
        ∃ d' code out, getD r c M d key = .ok (d', code, out) ∧
          ((∃ v, Spec.lookup (L.live (Spec.dropped c.N c.B L.pages.length)) key = some v ∧ code = 0 ∧ out = some v) ∨
            (Spec.lookup (L.live (Spec.dropped c.N c.B L.pages.length)) key = none ∧ code = -1 ∧ out = none)) := by
  obtain ⟨d, e, T, hn, -⟩ := runOps_ok (m := 0) hok (Or.inl rfl) hB h255 (G := fun d x ops => NoStale c d x ops)
    (fun d L x op ops g _ hc => g.1 hc) (fun d L x op ops d' x' o g _ _ e => g.2 d' x' o e) ops (Data.fresh c rb sm) x
    Log.empty (fresh_table hok rb sm) (by simp [Data.fresh]) hC (by simp [Log.all, Log.empty]) hS
  have hn' : d.next ≤ ops.length := by simpa [Data.fresh] using hn
  refine ⟨d, _, e, rfl, fun key hk hin => ?_⟩
  set L := Spec.logAfter c.maxRec Log.empty (history c (Data.fresh c rb sm) x ops) with hL
  have hbl : L.buf.length ≤ c.maxRec := T.cap.2
  have hz : d.next = 0 → L.buf ≠ [] → (∃ a ∈ L.buf, a.1 ≤ key) ∧ ∃ b ∈ L.buf, key ≤ b.1 := fun h0 hb =>
    hin (List.length_eq_zero_iff.mp (by rw [← T.sim.next]; exact h0)) hb
  have e1 : getD r c M d key = get c d key :=
    getW_eq (searchesAs_D hM h32 hE) h8 (by omega) hok.cmp hok.N0 hB hok.spline hk T.sim hn' T.cap.1 hbl hz
  have e2 : getF r c d key = get c d key := getF_eq hE h8 (by omega) hok.cmp hok.N0 hB hok.spline hk T.sim hn' T.cap.1 hbl hz
  refine ⟨e1.trans e2.symm, ?_⟩
  rw [e1]
  obtain ⟨d', code, out, g1, -, -, g4⟩ := get_ok hok.cmp hok.N0 hB hok.spline hk T.sim hn' (fun i hi => by omega)
  have hd := T.dropped_max hok.B0 (dvd_zero _)
  rw [Nat.zero_max] at hd
  rw [hd] at g4
  exact ⟨d', code, out, g1, g4⟩

/-- C71 for inserts (`_partial`: the setting of C61 for inserts).  The error `embedDBPut` computes of a complete page is that of the
library, for keys of up to 8 bytes. -/
theorem C71_put_partial (r : Rnd 24) (c : Cfg) (M lo K : Nat) (ops : List Op) (rb : Page) (sm : Nat → Nat × Nat) (x : Idx)
    (hM : c.pageSize ≤ M) (h32 : c.pageSize < 2 ^ 32) (hok : c.Ok K) (hB : Bounds c lo K ops.length) (h8 : c.keySize ≤ 8)
    (h255 : c.maxRec ≤ 255) (hC : Client c lo K ops) (hS : NoStale c (Data.fresh c rb sm) x ops) :
    ∃ d, runOps c (Data.fresh c rb sm) x ops = .ok (d, x) ∧
      (c.maxRec ≤ pageCount d.wbuf → getMaxErrD r c M d.wbuf d.wbuf = getMaxErr r c d.wbuf d.wbuf ∧
        ∃ e, getMaxErrD r c M d.wbuf d.wbuf = .ok e ∧ e ≤ c.maxRec) := by
  obtain ⟨d, e, T, hn, -⟩ := runOps_ok (m := 0) hok (Or.inl rfl) hB h255 (G := fun d x ops => NoStale c d x ops)
    (fun d L x op ops g _ hc => g.1 hc) (fun d L x op ops d' x' o g _ _ e => g.2 d' x' o e) ops (Data.fresh c rb sm) x
    Log.empty (fresh_table hok rb sm) (by simp [Data.fresh]) hC (by simp [Log.all, Log.empty]) hS
  obtain ⟨d2, e2, he⟩ := C61_put_partial r c lo K ops rb sm x hok hB h8 h255 hC hS
  rw [e] at e2
  cases e2
  refine ⟨d, e, fun hfull => ?_⟩
  have hcount : pageCount d.wbuf = (Spec.logAfter c.maxRec Log.empty (history c (Data.fresh c rb sm) x ops)).buf.length := by
    rw [← recs_length c, T.sim.buf]
  have hcap := T.cap.2
  have h0 := hok.cap
  have hD : getMaxErrD r c M d.wbuf d.wbuf = getMaxErr r c d.wbuf d.wbuf :=
    getMaxErrD_eq hM h32 (by split_ifs <;> omega) (by split_ifs <;> omega)
  refine ⟨hD, ?_⟩
  rw [hD]
  exact he hfull

/-! ### The hypotheses are satisfiable -/

/-- C71 for lookups and inserts on a history that wraps the file, in binary32 arithmetic. -/
example : ∃ d, runOps (demoF binary32) (Data.fresh (demoF binary32) (fun _ => 0) (fun _ => (0, 0))) noIdx
      (demoPuts ++ [Op.flush] ++ demoReads) = .ok (d, noIdx) ∧
    ((demoF binary32).maxRec ≤ pageCount d.wbuf → getMaxErrD binary32 (demoF binary32) 1000 d.wbuf d.wbuf = getMaxErr binary32 (demoF binary32) d.wbuf d.wbuf) := by
  obtain ⟨h1, h2, h3, h4, h5⟩ := demoF_setting
  have hM : (demoF binary32).pageSize ≤ 1000 := by show demo.pageSize ≤ 1000; decide
  have h32 : (demoF binary32).pageSize < 2 ^ 32 := by show demo.pageSize < 2 ^ 32; decide
  have h8 : (demoF binary32).keySize ≤ 8 := by show demo.keySize ≤ 8; decide
  have h255 : (demoF binary32).maxRec ≤ 255 := by show demo.maxRec ≤ 255; decide
  obtain ⟨d, e, -⟩ := C71_lookup_partial binary32 _ 1000 0 1000 _ (fun _ => 0) (fun _ => (0, 0)) noIdx hM h32 h1 h2 h3 h8 h255 h4 h5
  obtain ⟨d', e', h⟩ := C71_put_partial binary32 _ 1000 0 1000 _ (fun _ => 0) (fun _ => (0, 0)) noIdx hM h32 h2 h3 h8 h255 h4 h5
  exact ⟨d', e', fun hf => (h hf).1⟩

/-- C71 for opening a file: a device with a page that is not full. -/
example : let p := appendRec demo (initPage demo) 5 [1, 2, 3, 4] 0
    let v : Dev := { file := fun i => if i = 0 then some p else none, log := [], reqs := 0 }
    ∀ i q, v.file i = some q → Spec.pageNo q % demo.N = i →
      0 < (Spec.pageRecs demo.hdr demo.recSize demo.keySize demo.dataSize q).length ∧
      (Spec.pageRecs demo.hdr demo.recSize demo.keySize demo.dataSize q).length ≤ demo.maxRec := by
  intro p v i q hq _
  by_cases h : i = 0
  · rw [show v.file i = some p from if_pos h] at hq
    cases hq
    decide +kernel
  · rw [show v.file i = none from if_neg h] at hq
    simp at hq

end EDB
