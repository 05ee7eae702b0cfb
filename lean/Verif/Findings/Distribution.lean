import Verif.Props.Distribution
import Verif.Findings.Estimate

/-!
# C71: the single-file distribution reads out of bounds when it opens a file of long keys
-/

namespace EDB

open Spec (Op Rnd)

/-- Opening a file that starts with a page of the table. -/
theorem open_long (r : Rnd 24) (c : Cfg) (M : Nat) (v : Dev) (rb : Page) (sm : Nat → Nat × Nat) (p : Page) (h4 : 4 < c.keySize)
    (hM : M + c.recSize < 2 ^ 32) (hp : v.file 0 = some p) (hval : looksValid c p 0 = true) :
    recoverPlainD r c M (Data.opening c v rb sm) = .ub := by
  have hread : readPage (Data.opening c v rb sm) 0 =
      ({ Data.opening c v rb sm with rbuf := p, buffered := some 0, numReads := (Data.opening c v rb sm).numReads + 1 }, true) := by
    unfold readPage
    have : (Data.opening c v rb sm).dev.file 0 = some p := hp
    rw [if_neg (by simp [Data.opening, Data.fresh]), this]
  have hme : getMaxErrD r c M p (initPage c) = .ub := by
    unfold getMaxErrD
    rw [if_neg (by omega), slopeOfD_empty hM (by unfold Cfg.recSize; omega) (count_init c)]
    rfl
  unfold recoverPlainD recoverWith probeF
  simp only [hread, if_true, hval]
  rw [show (Data.opening c v rb sm).wbuf = initPage c from rfl, hme]
  rfl

/-- C71 is false for opening files: with keys of more than 4 bytes the distribution reads out of bounds whenever the file
starts with a page of the table (1 to 127 records), in every configuration and every rounding mode.  The slope wanted is that of the
write buffer, which is empty at this time, and the copy of `embedDBCalculateSlope` in the distribution takes the record before the
first one as the last one, with an offset of about 2^32. -/
theorem C71_false_open (r : Rnd 24) (c : Cfg) (M : Nat) (v : Dev) (rb : Page) (sm : Nat → Nat × Nat) (p : Page)
    (h4 : 4 < c.keySize) (hM : M + c.recSize < 2 ^ 32) (hp : v.file 0 = some p) (hno : Spec.pageNo p % c.N = 0)
    (h0 : 0 < (Spec.pageRecs c.hdr c.recSize c.keySize c.dataSize p).length)
    (h1 : (Spec.pageRecs c.hdr c.recSize c.keySize c.dataSize p).length ≤ c.maxRec)
    (h127 : (Spec.pageRecs c.hdr c.recSize c.keySize c.dataSize p).length ≤ 127) :
    recoverPlainD r c M (Data.opening c v rb sm) = .ub := by
  rw [← recs_spec, recs_length] at h0 h1 h127
  refine open_long r c M v rb sm p h4 hM hp ?_
  unfold looksValid
  simp only [decide_eq_true_eq]
  have h8 : toInt8 (pageCount p) = pageCount p := by
    unfold toInt8
    simp only
    rw [Nat.mod_eq_of_lt (by omega), if_pos (by omega)]
  rw [h8]
  exact ⟨by rw [pageId_spec]; exact hno, by omega, by omega⟩

/-- A file the library writes and opens, and the distribution does not: keys 1 to 5, two records on a page. -/
theorem C71_false_witness : ∃ d x,
    runOps longKeys (Data.fresh longKeys (fun _ => 0) (fun _ => (0, 0))) noIdx
      [.put 1 (dat 7), .put 2 (dat 8), .put 3 (dat 9), .put 4 (dat 10), .put 5 (dat 11)] = .ok (d, x) ∧
    ∀ (r : Rnd 24) (rb : Page) (sm : Nat → Nat × Nat) (M : Nat), M < 2 ^ 31 →
      recoverPlainF r longKeys (Data.opening longKeys d.dev rb sm) = .ok (recoverPlain longKeys (Data.opening longKeys d.dev rb sm)) ∧
      recoverPlainD r longKeys M (Data.opening longKeys d.dev rb sm) = .ub := by
  have h : ((runOps longKeys (Data.fresh longKeys (fun _ => 0) (fun _ => (0, 0))) noIdx
      [.put 1 (dat 7), .put 2 (dat 8), .put 3 (dat 9), .put 4 (dat 10), .put 5 (dat 11)]).check fun (d, _) =>
      (List.range longKeys.N).all (fun i => match d.dev.file i with
        | none => decide (i ≠ 0)
        | some p => decide (Spec.pageNo p = i ∧
          (Spec.pageRecs longKeys.hdr longKeys.recSize longKeys.keySize longKeys.dataSize p).length = longKeys.maxRec ∧
          (Spec.pageRecs longKeys.hdr longKeys.recSize longKeys.keySize longKeys.dataSize p).Pairwise
            (fun a b => a.1 < b.1 ∧ b.1 < a.1 + 2 ^ 30)))) = true := by decide +kernel
  obtain ⟨⟨d, x⟩, e1, h1⟩ := Res.check_ok h
  simp only [List.all_eq_true, List.mem_range] at h1
  refine ⟨d, x, e1, fun r rb sm M hM => ⟨?_, ?_⟩⟩
  · refine C61_reopen_long_partial r longKeys d.dev rb sm (by decide) (by decide) (by decide) (fun i p hp hi => ?_)
    have := h1 i (by rw [← hi]; exact Nat.mod_lt _ (by decide))
    rw [hp] at this
    simp only [decide_eq_true_eq] at this
    exact this.2
  · have h0 := h1 0 (by decide)
    cases hp : d.dev.file 0 with
    | none => rw [hp] at h0; simp at h0
    | some p =>
      rw [hp] at h0
      simp only [decide_eq_true_eq] at h0
      obtain ⟨a, b, -⟩ := h0
      have hmr : longKeys.maxRec = 2 := by decide
      have hrs : longKeys.recSize = 12 := by decide
      exact C71_false_open r longKeys M d.dev rb sm p (by decide) (by rw [hrs]; omega) hp (by rw [a]; rfl)
        (by rw [b, hmr]; omega) (by rw [b]) (by rw [b, hmr]; omega)

end EDB
