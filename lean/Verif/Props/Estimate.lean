import Verif.Proofs.Estimate
import Verif.Props.History

/-!
# C61: the floating point estimates

A conversion of a `float` to an integer type that cannot hold its value is undefined in C.  Where it happens:
Findings/Estimate.lean.
-/

namespace EDB

open Spec (Log Op Out Rnd)

/-- C61 for lookups (`_partial`: spline search, the setting of C02, at most 255 records per page, keys of at most 8 bytes;
and, while no page has been written yet, only keys between the smallest and the largest key in the write buffer: without
that the claim is false, `C61_false_first_page`).

After every history the lookup with the estimate computed in `float` arithmetic, in any rounding mode, makes only defined
conversions and answers from the records retained. -/
theorem C61_lookup_partial (r : Rnd 24) (c : Cfg) (lo K : Nat) (ops : List Op) (rb : Page) (sm : Nat → Nat × Nat) (x : Idx)
    (hE : Estimates r c) (hok : c.Ok K) (hB : Bounds c lo K ops.length) (h8 : c.keySize ≤ 8) (h255 : c.maxRec ≤ 255)
    (hC : Client c lo K ops) (hS : NoStale c (Data.fresh c rb sm) x ops) :
    ∃ d L, runOps c (Data.fresh c rb sm) x ops = .ok (d, x) ∧
      L = Spec.logAfter c.maxRec Log.empty (history c (Data.fresh c rb sm) x ops) ∧
      ∀ key, key < K → (L.pages = [] → L.buf ≠ [] → (∃ a ∈ L.buf, a.1 ≤ key) ∧ ∃ b ∈ L.buf, key ≤ b.1) →
        ∃ d' code out, getF r c d key = .ok (d', code, out) ∧
          ((∃ v, Spec.lookup (L.live (Spec.dropped c.N c.B L.pages.length)) key = some v ∧ code = 0 ∧ out = some v) ∨
            (Spec.lookup (L.live (Spec.dropped c.N c.B L.pages.length)) key = none ∧ code = -1 ∧ out = none)) := by
  obtain ⟨d, e, T, hn, -⟩ := runOps_ok (m := 0) hok (Or.inl rfl) hB h255 (G := fun d x ops => NoStale c d x ops)
    (fun d L x op ops g _ hc => g.1 hc) (fun d L x op ops d' x' o g _ _ e => g.2 d' x' o e) ops (Data.fresh c rb sm) x
    Log.empty (fresh_table hok rb sm) (by simp [Data.fresh]) hC (by simp [Log.all, Log.empty]) hS
  have hn' : d.next ≤ ops.length := by simpa [Data.fresh] using hn
  refine ⟨d, _, e, rfl, fun key hk hin => ?_⟩
  set L := Spec.logAfter c.maxRec Log.empty (history c (Data.fresh c rb sm) x ops) with hL
  have hbl : L.buf.length ≤ c.maxRec := T.cap.2
  rw [getF_eq hE h8 (by omega) hok.cmp hok.N0 hB hok.spline hk T.sim hn' T.cap.1 hbl (by
    intro h0 hb
    exact hin (List.length_eq_zero_iff.mp (by rw [← T.sim.next]; exact h0)) hb)]
  obtain ⟨d', code, out, g1, -, -, g4⟩ := get_ok hok.cmp hok.N0 hB hok.spline hk T.sim hn' (fun i hi => by omega)
  have hd := T.dropped_max hok.B0 (dvd_zero _)
  rw [Nat.zero_max] at hd
  rw [hd] at g4
  exact ⟨d', code, out, g1, g4⟩

/-- C61 for inserts (`_partial`: the setting of C02, keys of at most 8 bytes, at most 255 records per page).  When
`embedDBPut` completes a page it calls `updateMaxiumError` on the full write buffer: every conversion there is defined. -/
theorem C61_put_partial (r : Rnd 24) (c : Cfg) (lo K : Nat) (ops : List Op) (rb : Page) (sm : Nat → Nat × Nat) (x : Idx)
    (hok : c.Ok K) (hB : Bounds c lo K ops.length) (h8 : c.keySize ≤ 8) (h255 : c.maxRec ≤ 255)
    (hC : Client c lo K ops) (hS : NoStale c (Data.fresh c rb sm) x ops) :
    ∃ d, runOps c (Data.fresh c rb sm) x ops = .ok (d, x) ∧
      (c.maxRec ≤ pageCount d.wbuf → ∃ e, getMaxErr r c d.wbuf d.wbuf = .ok e ∧ e ≤ c.maxRec) := by
  obtain ⟨d, e, T, hn, -⟩ := runOps_ok (m := 0) hok (Or.inl rfl) hB h255 (G := fun d x ops => NoStale c d x ops)
    (fun d L x op ops g _ hc => g.1 hc) (fun d L x op ops d' x' o g _ _ e => g.2 d' x' o e) ops (Data.fresh c rb sm) x
    Log.empty (fresh_table hok rb sm) (by simp [Data.fresh]) hC (by simp [Log.all, Log.empty]) hS
  refine ⟨d, e, fun hfull => ?_⟩
  have hcount : pageCount d.wbuf = (Spec.logAfter c.maxRec Log.empty (history c (Data.fresh c rb sm) x ops)).buf.length := by
    rw [← recs_length c, T.sim.buf]
  have hcap := T.cap.2
  obtain ⟨v, hv⟩ := getMaxErr_ok r T.sim.sortedBuf h8 (w := d.wbuf) (by omega) hok.cap (by omega) (Or.inr rfl)
  refine ⟨v, hv, ?_⟩
  unfold getMaxErr at hv
  obtain ⟨m, -, hm⟩ := Res.bind_eq_ok hv
  cases hm
  split_ifs <;> omega

/-- C61 for reopening (`_partial`: keys of at most 4 bytes and every page on file that carries the number of its place is a
full page of ascending keys, that is, was not written by `embedDBFlush`; for other files the claim is false,
`C61_false_reopen`).  Opening the file makes only defined conversions. -/
theorem C61_reopen_partial (r : Rnd 24) (c : Cfg) (v : Dev) (rb : Page) (sm : Nat → Nat × Nat) (h4 : c.keySize ≤ 4)
    (hcap : 0 < c.maxRec) (h255 : c.maxRec ≤ 255)
    (hfull : ∀ i p, v.file i = some p → Spec.pageNo p % c.N = i →
      (Spec.pageRecs c.hdr c.recSize c.keySize c.dataSize p).length = c.maxRec ∧
      (Spec.pageRecs c.hdr c.recSize c.keySize c.dataSize p).Pairwise (fun a b => a.1 < b.1)) :
    recoverPlainF r c (Data.opening c v rb sm) = .ok (recoverPlain c (Data.opening c v rb sm)) := by
  apply recoverWith_eq
  · intro b hb; simp [Data.opening, Data.fresh] at hb
  · intro i p hp hid
    obtain ⟨h1, h2⟩ := hfull i p hp (by rw [← pageId_spec]; exact hid)
    rw [← recs_spec] at h1 h2
    rw [recs_length] at h1
    have hs : SortedPage c (256 ^ c.keySize) p := (sortedPage_iff c _ p).mpr ⟨h2, fun x hx => by
      obtain ⟨i, hi, rfl⟩ := mem_recs.mp hx
      exact slotKey_lt c p i⟩
    exact getMaxErr_ok r hs (by omega) h1 hcap (by omega) (Or.inl h4)

/-- C61 for reopening with keys of more than 4 bytes (`_partial`: every page on file that carries the number of its place is
a full page of ascending keys less than 2^30 apart; for other files the claim is false, `C61_false_reopen_long`). -/
theorem C61_reopen_long_partial (r : Rnd 24) (c : Cfg) (v : Dev) (rb : Page) (sm : Nat → Nat × Nat) (h4 : 4 < c.keySize)
    (h8 : c.keySize ≤ 8) (h255 : c.maxRec ≤ 255)
    (hfull : ∀ i p, v.file i = some p → Spec.pageNo p % c.N = i →
      (Spec.pageRecs c.hdr c.recSize c.keySize c.dataSize p).length = c.maxRec ∧
      (Spec.pageRecs c.hdr c.recSize c.keySize c.dataSize p).Pairwise (fun a b => a.1 < b.1 ∧ b.1 < a.1 + 2 ^ 30)) :
    recoverPlainF r c (Data.opening c v rb sm) = .ok (recoverPlain c (Data.opening c v rb sm)) := by
  apply recoverWith_eq
  · intro b hb; simp [Data.opening, Data.fresh] at hb
  · intro i p hp hid
    obtain ⟨h1, h2⟩ := hfull i p hp (by rw [← pageId_spec]; exact hid)
    rw [← recs_spec] at h1 h2
    rw [recs_length] at h1
    refine getMaxErr_long r h4 ?_ (by omega) ?_
    · show pageCount (initPage c) ≤ 1
      rw [count_init]; omega
    · intro j hj
      have hb := lt_of_lt_of_le (slotKey_lt c p j) (keyMod_ge h8)
      have hlen : (recs c p).length = pageCount p := recs_length c p
      rw [show pageMinKey c p = slotKey c p 0 from rfl]
      rcases Nat.eq_zero_or_pos j with h | h
      · subst h; rw [subMod_le (le_refl _) hb]; omega
      · have := List.pairwise_iff_getElem.mp h2 0 j (by omega) (by omega) h
        simp only [recs, List.getElem_map, List.getElem_range] at this
        rw [subMod_le this.1.le hb]
        omega

/-! ### The hypotheses are satisfiable -/

/-- The demo configuration with its estimates computed in `float` arithmetic. -/
def demoF (r : Rnd 24) : Cfg := { demo with est := fun p key => match estimateLoc r demo p key with | .ok e => e | _ => 0 }

theorem demoF_estimates (r : Rnd 24) : Estimates r (demoF r) := by
  intro p key e h
  have h' : estimateLoc r demo p key = .ok e := h
  show (match estimateLoc r demo p key with | .ok e => e | _ => 0) = e
  rw [h']

theorem demoF_ok (r : Rnd 24) (K : Nat) : (demoF r).Ok K where
  B0 := (demo_ok K).B0
  dvd := (demo_ok K).dvd
  two := (demo_ok K).two
  page := (demo_ok K).page
  cap := (demo_ok K).cap
  cap16 := (demo_ok K).cap16
  spl := (demo_ok K).spl
  layout := ⟨demo_layout.1, demo_layout.2, fun _ _ h => h⟩
  cmp := demo_cmp K
  plain := rfl
  spline := rfl
  io _ := rfl

/-- Rounding is not the identity: 2^24 + 1 has no representation in binary32, to nearest (even) it becomes 2^24. -/
example : binary32.f (2 ^ 24 + 1) = 2 ^ 24 := by
  show Spec.roundTo 24 toEven (2 ^ 24 + 1) = 2 ^ 24
  rw [roundTo_eval _ 24 (by norm_num) (by norm_num)]
  norm_num [toEven, Spec.nearestEven]

/-- The hypotheses of C61 for lookups and inserts hold of a history that wraps the file, in binary32 arithmetic with the default
rounding mode. -/
theorem demoF_setting : Estimates binary32 (demoF binary32) ∧ (demoF binary32).Ok 1000 ∧
    Bounds (demoF binary32) 0 1000 (demoPuts ++ [Op.flush] ++ demoReads).length ∧
    Client (demoF binary32) 0 1000 (demoPuts ++ [Op.flush] ++ demoReads) ∧
    NoStale (demoF binary32) (Data.fresh (demoF binary32) (fun _ => 0) (fun _ => (0, 0))) noIdx
      (demoPuts ++ [Op.flush] ++ demoReads) := by
  have B := demo_bounds (lo := 0) (K := 1000) (P := (demoPuts ++ [Op.flush] ++ demoReads).length) (by decide) (by decide)
  have C : Client (demoF binary32) 0 1000 (demoPuts ++ [Op.flush] ++ demoReads) :=
    ⟨demo_client.asc, demo_client.put, demo_client.get, demo_client.scan⟩
  exact ⟨demoF_estimates _, demoF_ok _ _, ⟨B.prod, B.pages, B.key⟩, C,
    NoStale.of_phased (K := 1000) (lo := 0) (demoF_ok _ _) _ _ _ ⟨demoPuts, [Op.flush], demoReads, rfl, by
      simp [demoPuts, Op.isPut], by simp, by simp [demoReads, Op.isRead], fun _ => rfl, fun _ => Or.inr rfl⟩ C⟩

/-- A device with one full page meets the hypotheses of C61 for reopening. -/
example : let p := appendRec demo (appendRec demo (initPage demo) 5 [1, 2, 3, 4] 0) 9 [5, 6, 7, 8] 0
    Spec.pageNo p % demo.N = 0 ∧ (Spec.pageRecs demo.hdr demo.recSize demo.keySize demo.dataSize p).length = demo.maxRec ∧
    (Spec.pageRecs demo.hdr demo.recSize demo.keySize demo.dataSize p).Pairwise (fun a b => a.1 < b.1) := by
  decide +kernel

end EDB
