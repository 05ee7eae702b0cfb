import Verif.Proofs.WriteFail
import Verif.Proofs.DemoVar

/-!
# C42: flushes of tables with an index or variable data when storage operations fail
-/

namespace EDB

/-- C42 for `embedDBFlush` of a table with variable data and possibly an index (`_partial`: false for inserts,
`C42_false_put`, `C42_false_putVar`; and what a flush that failed leaves behind, `C42_false_retry`, `C42_false_index`,
`C42_false_flush_again`).  Whatever the configuration, the state and the failures of the storage: if there are buffered
records, the call returns 0 exactly if the data page with these records, the index page with the page's bitmap and the
variable page (unless it is empty) have been written, each once; otherwise it returns -1. -/
theorem C42_flush_all_partial (c : Cfg) (d d' : Data) (x x' : Idx) (v v' : Var) (r : Int)
    (hne : pageCount d.wbuf ≠ 0) (h : flushV c d x v = .ok (d', x', v', r)) :
    let recsOf := Spec.pageRecs c.hdr c.recSize c.keySize c.dataSize
    let all := Spec.WroteOne d.dev.log d'.dev.log (d.next % c.N) (fun p => recsOf p = recsOf d.wbuf) ∧
      (c.useIndex = true → Spec.WroteOne x.dev.log x'.dev.log (x.next % c.numIdx)
        (fun p => rd p (16 + c.bitmapSize * pageCount x.wbuf) c.bitmapSize = rd d.wbuf 6 c.bitmapSize)) ∧
      (v.loc % c.pageSize ≠ c.vhdr → Spec.WroteOne v.dev.log v'.dev.log (v.next % c.numVar) (fun p => ∀ i, 4 ≤ i → p i = v.wbuf i))
    (r = 0 ∧ all) ∨ (r = -1 ∧ ¬ all) := by
  intro recsOf all
  have hrec : recsOf = recs c := by funext p; exact (recs_spec c p).symm
  have hout : recsOf (outPage d) = recsOf d.wbuf := by rw [hrec]; exact (sameRecs_id c d.wbuf d.next).recs
  unfold flushV at h
  obtain ⟨⟨d1, x1, r1, w1⟩, h1, h⟩ := Res.bind_eq_ok h
  simp only at h
  unfold flushX at h1
  rw [if_neg (by omega)] at h1
  obtain ⟨⟨d2, pn⟩, h2, h1⟩ := Res.bind_eq_ok h1
  rcases writePage_wrote h2 with ⟨rfl, e1, e2⟩ | ⟨rfl, e1, e2⟩
  · simp only at h1
    obtain ⟨i1, i2⟩ := indexPage_same (c := c) d2 (some d.next)
    have hD : ∀ dd : Data, dd.dev = d2.dev → Spec.WroteOne d.dev.log dd.dev.log (d.next % c.N) (fun p => recsOf p = recsOf d.wbuf) :=
      fun dd hd => ⟨outPage d, by rw [hd]; exact e2, hout⟩
    have hfin : d1.dev = d2.dev → r1 = 0 → w1 = true →
        (c.useIndex = true → Spec.WroteOne x.dev.log x1.dev.log (x.next % c.numIdx)
          (fun p => rd p (16 + c.bitmapSize * pageCount x.wbuf) c.bitmapSize = rd d.wbuf 6 c.bitmapSize)) → (r = 0 ∧ all) ∨ (r = -1 ∧ ¬ all) := by
      intro hd hr hw hI
      rw [if_pos ⟨hr, hw⟩] at h
      simp only [Res.ok.injEq, Prod.mk.injEq] at h
      obtain ⟨rfl, rfl, hv, hrr⟩ := h
      by_cases hn : v.loc % c.pageSize = c.vhdr
      · left
        have : flushVar c v = (v, 0) := by unfold flushVar; rw [if_pos hn]
        rw [this] at hrr
        exact ⟨hrr.symm, hD _ hd, hI, fun h => absurd hn h⟩
      · rcases flushVar_wrote hn (Prod.ext hv hrr) with ⟨a1, a2⟩ | ⟨a1, a2⟩
        · exact Or.inl ⟨a1, hD _ hd, hI, fun _ => a2⟩
        · exact Or.inr ⟨a1, fun ha => WroteOne.ne a2 (ha.2.2 hn)⟩
    have hbm : hdrBm c (indexPage c d2 (some d.next)).wbuf = rd d.wbuf 6 c.bitmapSize := by
      unfold hdrBm
      rw [i2, e1]
      exact rd_wr_disj _ _ _ _ _ (by rw [leBytes_length]; omega)
    by_cases hu : c.useIndex = true
    · rw [if_pos hu] at h1
      obtain ⟨⟨x2, ok⟩, h3, h1⟩ := Res.bind_eq_ok h1
      rw [hbm] at h3
      rcases idxFlush_wrote (rd_length _ _ _) h3 with ⟨rfl, hI⟩ | ⟨rfl, hI⟩
      · simp only [if_true, Res.ok.injEq, Prod.mk.injEq] at h1
        obtain ⟨rfl, rfl, rfl, rfl⟩ := h1
        exact hfin i1 rfl rfl (fun _ => hI)
      · simp only [Bool.false_eq_true, if_false, Res.ok.injEq, Prod.mk.injEq] at h1
        obtain ⟨rfl, rfl, rfl, rfl⟩ := h1
        rw [if_neg (by simp)] at h
        simp only [Res.ok.injEq, Prod.mk.injEq] at h
        obtain ⟨rfl, rfl, rfl, rfl⟩ := h
        exact Or.inr ⟨rfl, fun ha => WroteOne.ne hI (ha.2.1 hu)⟩
    · rw [if_neg hu] at h1
      simp only [Res.ok.injEq, Prod.mk.injEq] at h1
      obtain ⟨rfl, rfl, rfl, rfl⟩ := h1
      exact hfin i1 rfl rfl (fun h => absurd h hu)
  · simp only [Res.ok.injEq, Prod.mk.injEq] at h1
    obtain ⟨rfl, rfl, rfl, rfl⟩ := h1
    rw [if_neg (by simp)] at h
    simp only [Res.ok.injEq, Prod.mk.injEq] at h
    obtain ⟨rfl, rfl, rfl, rfl⟩ := h
    exact Or.inr ⟨rfl, fun ha => WroteOne.ne e2 ha.1⟩

/-- Both cases occur: a variable data file whose writes are refused (its request counter starts at 100), and one whose writes
are not. -/
example : ((runOpsV demoV demoV0 noIdx { demoVar0 with dev := { demoVar0.dev with reqs := 100 } } [.put 1 (dat 1) (some (blob 10 1))]).check
    fun s => pageCount s.1.wbuf ≠ 0 ∧ s.2.2.loc % demoV.pageSize ≠ demoV.vhdr ∧
      (flushV { demoV with ioOk := fun n => n != 100 } s.1 s.2.1 s.2.2).check (fun t => t.2.2.2 = -1) ∧
      (flushV demoV s.1 s.2.1 s.2.2).check (fun t => t.2.2.2 = 0)) = true := by
  decide +kernel

end EDB
