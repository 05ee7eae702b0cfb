import Verif.Proofs.Wear

/-!
# C09, C43, C60 over whole lives of a data file

Sessions, power failures at any storage operation, and reopenings.
-/

namespace EDB

open Spec (Log Op Out)

section
variable {c : Cfg} {lo K P : Nat} {R : List Nat} {d : Data} {L : Log}

/-! ## C43 -/

/-- C43 for whole lives (`_partial`: `Durable` configurations, ascending keys, and the exception below, which `C43_false_reopen` shows to
be real).  Whatever happened to a data file that was reopened when it had `R` pages: every page written was new or had been erased since it
was last written, unless its block is the one that was about to be reused when the file was reopened. -/
theorem C43_life_partial (D : Durable c lo K P) (h : LifeR c lo K P R d L) :
    Spec.ErasedFirstBut (fun n => ∃ b ∈ R, c.N < b ∧ b % c.B = 0 ∧ b % c.N ≠ 0 ∧ b ≤ n ∧ n < b + c.B) d.dev.log := by
  obtain ⟨W, hG, -⟩ := h.worn D
  exact W.erasedFirst D.ok.B0 D.ok.dvd D.ok.N0 hG

/-- `ErasedFirstBut` is not trivial: page 0 is written twice without an erase; exempting the second write makes it true. -/
example (p : Page) : ¬ Spec.ErasedFirstBut (fun _ => False) [.write 0 p, .write 1 p, .erase 1 2, .write 0 p] := by
  intro h
  obtain ⟨lo, hi, h1, h2, h3⟩ := h [.write 0 p, .write 1 p, .erase 1 2] 0 p [] rfl (by simp) [] p [.write 1 p, .erase 1 2] rfl
  simp at h1
  omega

/-! ## C60 -/

/-- C60 for erases over whole lives (`_partial`: `Durable` configurations, ascending keys).  A power failure costs at most one erase: after
`R.length` of them no page was erased more than `R.length + 1` times more than another.  (Writes: `C60_life_partial`.) -/
theorem C60_life_erases_partial (D : Durable c lo K P) (h : LifeR c lo K P R d L) {i j : Nat} (hi : i < c.N) (hj : j < c.N) :
    Spec.timesErased d.dev.log i ≤ Spec.timesErased d.dev.log j + 1 + R.length :=
  (h.worn D).1.even D.ok.B0 D.ok.dvd D.ok.N0 hi hj

/-! ## C09 -/

/-- The file can always be reopened as it is. -/
theorem Life.safe (D : Durable c lo K P) (h : Life c lo K P d L) {k : Nat} (hk : d.dev.log.length ≤ k) : SafeCut c d.dev k := by
  have h32 : P ≤ 2 ^ 32 := by have := D.bounds.pages; omega
  have key : SafeCut c d.dev d.dev.log.length := by
    induction h with
    | new rb sm => left; intro hi; simp [Data.fresh]
    | op h e hput hP ih =>
      rcases step_log D.ok e with hl | ⟨p, hl⟩
      · unfold SafeCut at ih ⊢
        rw [hl]
        exact ih (by rw [← hl]; exact hk)
      · left
        intro hi
        rw [List.take_length, hl, List.getLast?_concat]
        simp
    | @cut d d' L h k rb sm hs e ih =>
      obtain ⟨J, hlt, m, hm, hd, T⟩ := h.ok D.ok D.bounds h32 D.recs127 D.file32 D.eraser D.spline D.pos
      have hn : d.next = _ := T.sim.next
      obtain ⟨d1, n, g1, g2, g3, g4, g5, -⟩ := reopen_ok D.ok D.bounds h32 D.recs127 D.file32 D.eraser J T.sim.sorted
        T.sim.bound T.sim.full T.cap (by omega) k hs rb sm
      rw [e] at g1
      cases g1
      have hdl : d'.dev.log = d.dev.log.take k := by rw [g5]; rfl
      unfold SafeCut at hs ⊢
      rw [hdl, List.take_length]
      exact hs
  unfold SafeCut at key ⊢
  rw [List.take_of_length_le hk]
  rwa [List.take_length] at key

/-- C09 for whole lives (`_partial`: `Durable` configurations, ascending keys).  Whatever happened to a data file before, a flush returns 0;
the retained records stay the same, unless no page was free, in which case exactly the oldest block is gone; all of them are then on the
device, in order, and none is left in the write buffer.  If power fails at any time after the flush and before the next storage operation, opening the
file again finds exactly the records of all pages from `Spec.recovered` on (`recovered_rule`). -/
theorem C09_life_partial (D : Durable c lo K P) (h : Life c lo K P d L) (hP : d.next + 1 < P) :
    ∃ d' w, flushD c d = .ok (d', 0, w) ∧ L.flush.all = L.all ∧
      (L.flush.live d'.min = L.live d.min ∨ (d.next - d.min = c.N ∧ L.flush.live d'.min = L.live (d.min + c.B))) ∧
      Spec.storedRecs (Spec.pageRecs c.hdr c.recSize c.keySize c.dataSize) d'.dev.file c.N d'.min (d'.next - d'.min) =
        L.flush.live d'.min ∧
      Spec.pageRecs c.hdr c.recSize c.keySize c.dataSize d'.wbuf = [] ∧
      ∀ k rb sm, d'.dev.log.length ≤ k → ∃ d2, reopen c d'.dev k rb sm = (d2, 0) ∧
        d2.min = Spec.recovered c.N c.B L.flush.pages.length ∧
        Spec.storedRecs (Spec.pageRecs c.hdr c.recSize c.keySize c.dataSize) d2.dev.file c.N d2.min (d2.next - d2.min) =
          L.live d2.min := by
  have h32 : P ≤ 2 ^ 32 := by have := D.bounds.pages; omega
  obtain ⟨J, hlt, m, hm, hdv, T⟩ := h.ok D.ok D.bounds h32 D.recs127 D.file32 D.eraser D.spline D.pos
  obtain ⟨d', h1, T', h2⟩ := T.core_flush D.ok hm D.bounds (d := d) (by omega)
  have hrec : Spec.pageRecs c.hdr c.recSize c.keySize c.dataSize = recs c := by funext p; rw [recs_spec]
  have hbuf : L.flush.buf = [] := by unfold Log.flush; split_ifs with hb <;> simp [hb]
  have hflive : ∀ m, m ≤ L.pages.length → L.flush.live m = L.live m := by
    intro m hm
    unfold Log.flush Log.live
    split_ifs with hb
    · rfl
    · simp only [List.append_nil]
      rw [List.drop_append_of_le_length hm, List.flatten_append]
      simp
  have hnx : d.next = L.pages.length := T.sim.next
  have hml : d.min ≤ d.next := T.sim.minle
  have hnx' : d'.next = L.flush.pages.length := T'.sim.next
  have e1 : step c d noIdx .flush = .ok (d', noIdx, .code 0) := by
    simp only [step]; rw [h1]; rfl
  have hl : Life c lo K P d' L.flush := by
    have := Life.op (lo := lo) (K := K) (P := P) h e1 (by simp) hP
    exact this
  refine ⟨d', _, h1, Log_flush_all, ?_, ?_, ?_, ?_⟩
  · by_cases hb : L.buf = []
    · rw [if_pos hb] at h2
      subst h2
      left
      exact hflive _ (by omega)
    · rw [if_neg hb] at h2
      subst h2
      have hm : (sealed c d).min = outMin c d := rfl
      rw [hm]
      have hs : d.next + d.avail = d.min + c.N := T.room.sum
      unfold outMin
      have := D.ok.two
      split_ifs with ha
      · right
        exact ⟨by omega, hflive _ (by omega)⟩
      · left
        exact hflive _ (by omega)
  · rw [hrec, hnx']
    have := storedRecs_eq (c := c) (file := d'.dev.file) (pages := L.flush.pages) d'.min
      (by rw [← hnx']; exact T'.sim.minle) (fun l h3 h4 => by
        obtain ⟨p, h5, h6, _⟩ := T'.sim.stored l h3 h4
        exact ⟨p, h5, h6⟩)
    rw [this]
    unfold Log.live
    rw [hbuf, List.append_nil]
  · rw [hrec]
    have := T'.sim.buf
    rw [hbuf] at this
    exact this
  · intro k rb sm hk
    obtain ⟨d2, n, g1, g2, g3, g4, g5, g6, g7, g8, g9⟩ := C18_crash_partial D hl k (hl.safe D hk) rb sm
    obtain ⟨J', hlt', -⟩ := hl.ok D.ok D.bounds h32 D.recs127 D.file32 D.eraser D.spline D.pos
    have hn : n = L.flush.pages.length := by
      rw [g2, List.take_of_length_le hk, ← wrote_length]; exact J'.count
    refine ⟨d2, g1, by rw [g6, hn], ?_⟩
    rw [g5, g8]
    have hcut : cutLog L.flush d'.dev k = L.flush := by
      unfold cutLog
      rw [← g2, hn, List.take_length]
      conv_rhs => rw [show L.flush = ⟨L.flush.pages, L.flush.buf⟩ from rfl, hbuf]
    rw [hcut]
    apply hflive
    rw [g6]
    rcases Nat.eq_zero_or_pos n with h0 | h0
    · rw [h0, recovered_small (Nat.zero_le _)]; omega
    · have := (recovered_rule c.N c.B n D.ok.B0 D.ok.dvd (by have := D.ok.two; have := D.ok.B0; omega)).2.2.2.2.2.2 h0
      have := Log_flush_pages (L := L)
      omega

end

/-- A life to which the theorems of this file apply: twelve inserts and a flush, power failure, reopening with six pages (where the
exception of C43 sets in), one more insert. -/
example : Durable demo 0 1000 100 ∧ ∃ R d L, LifeR demo 0 1000 100 (6 :: R) d L ∧ d.next = 6 ∧ L.buf = [(13, dat 1)] ∧
    demo.N < 6 ∧ 6 % demo.B = 0 ∧ 6 % demo.N ≠ 0 := by
  refine ⟨demo_durable 100 (by decide) (by decide), ?_⟩
  obtain ⟨d, x', h1, h2⟩ := demo_life
  obtain ⟨R, h3⟩ := h1.exists_reopenings
  have : ((runOps demo demo0 noIdx (demoPuts ++ [Op.flush])).check fun (d, _) =>
      let r := reopen demo d.dev d.dev.log.length (fun _ => 0) fun _ => (0, 0)
      let L := Spec.logAfter 2 Log.empty (history demo demo0 noIdx (demoPuts ++ [Op.flush]))
      r.2 = 0 ∧ (Spec.writes (d.dev.log.take d.dev.log.length)).length = 6 ∧
      ((step demo r.1 noIdx (.put 13 (dat 1))).check fun (d2, _, o) => o = .code 0 ∧ d2.next = 6) ∧
      (∀ r ∈ (cutLog L d.dev d.dev.log.length).all, r.1 < 13) ∧ r.1.next = 6 ∧
      (Spec.logAfter 2 (cutLog L d.dev d.dev.log.length) [(.put 13 (dat 1), some (.code 0))]).buf = [(13, dat 1)]) = true := by decide +kernel
  obtain ⟨⟨d1, x1⟩, e1, q⟩ := Res.check_ok this
  rw [h2] at e1
  cases e1
  simp only [decide_eq_true_eq] at q
  obtain ⟨g1, g2, g3, g4, g5, g6⟩ := q
  have h4 := LifeR.cut h3 d.dev.log.length (fun _ => 0) (fun _ => (0, 0)) (Or.inr fun q => rfl)
    (Prod.ext (y := ((reopen demo d.dev d.dev.log.length (fun _ => 0) fun _ => (0, 0)).1, 0)) rfl g1)
  rw [g2] at h4
  obtain ⟨⟨d2, x2, o⟩, g7, g8⟩ := Res.check_ok g3
  simp only [decide_eq_true_eq] at g8
  have h5 := LifeR.op h4 g7 (by
    intro k v e
    cases e
    exact ⟨by decide, by decide, rfl, g4⟩) (by rw [g5]; decide)
  rw [g8.1] at h5
  exact ⟨R, d2, _, h5, g8.2, g6, by decide⟩

end EDB
