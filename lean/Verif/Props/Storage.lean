import Verif.Proofs.Keep
import Verif.Props.History

/-!
# C08, C09, C10, C42, C43, C45: what is on the storage device
-/

namespace EDB

open Spec (Log Op Out)

/-! ## C08 -/

/-- The retention rule of the specification: whole blocks, none while the pages fit, never more than needed to keep
`N - B` pages, never un-dropping, one block at a time. -/
theorem dropped_rule (N B t : Nat) (hB : 0 < B) (hBN : B ≤ N) :
    B ∣ Spec.dropped N B t ∧ (t ≤ N → Spec.dropped N B t = 0) ∧ t - Spec.dropped N B t ≤ N ∧
    (N - B ≤ t → Spec.dropped N B t ≤ t - (N - B)) ∧ Spec.dropped N B t ≤ t ∧
    (Spec.dropped N B (t + 1) = Spec.dropped N B t ∨ Spec.dropped N B (t + 1) = Spec.dropped N B t + B) := by
  have hdm : ∀ x, B * (x / B) + x % B = x := fun x => Nat.div_add_mod x B
  unfold Spec.dropped
  have h0 := hdm (t - N + B - 1)
  have h0' := Nat.mod_lt (t - N + B - 1) hB
  refine ⟨?_, fun h => if_pos h, ?_, ?_, ?_, ?_⟩
  · split_ifs
    · exact dvd_zero _
    · exact dvd_mul_right _ _
  · split_ifs <;> omega
  · intro h
    split_ifs <;> omega
  · split_ifs <;> omega
  · rcases Nat.lt_or_ge t N with h | h
    · rw [if_pos (show t + 1 ≤ N by omega), if_pos (show t ≤ N by omega)]; exact Or.inl rfl
    · rw [if_neg (show ¬ t + 1 ≤ N by omega)]
      rcases Nat.lt_or_ge N t with h' | h'
      · rw [if_neg (show ¬ t ≤ N by omega)]
        have e : t + 1 - N + B - 1 = (t - N + B - 1) + 1 := by omega
        rw [e, Nat.succ_div]
        split_ifs
        · right; rw [Nat.mul_add, Nat.mul_one]
        · left; rw [Nat.add_zero]
      · rw [if_pos (show t ≤ N by omega)]
        right
        have e : t + 1 - N + B - 1 = B := by omega
        rw [e, Nat.div_self hB]; omega

/-- C08.  For every history of operations with whatever keys and data: the pages written so far are numbered from 0, page
`l` was written at `l % N`, the library has dropped the oldest `Spec.dropped N B` of them (see `dropped_rule`),
and every page not dropped is stored exactly as it was written.  `C45_sorted_storage_partial` adds that the records of
the pages and of the write buffer are those inserted. -/
theorem C08_retention (c : Cfg) (K : Nat) (ops : List Op) (rb : Page) (sm : Nat → Nat × Nat) (x x' : Idx) (d : Data)
    (hok : c.Ok K) (h : runOps c (Data.fresh c rb sm) x ops = .ok (d, x')) :
    (Spec.writes d.dev.log).length = d.next ∧ d.min = Spec.dropped c.N c.B d.next ∧
    ∀ l, l < d.next → ∃ p, (Spec.writes d.dev.log)[l]? = some (l % c.N, p) ∧
      (Spec.dropped c.N c.B d.next ≤ l → d.dev.file (l % c.N) = some p) := by
  have I : Kept c d := runOps_induct (I := Kept c) (Q := fun _ => True)
    (fun _ _ _ _ _ _ I _ e => I.step hok e) ops _ _ _ _ (Kept.fresh hok rb sm) (by simp) h
  refine ⟨I.count, I.dropped hok.B0, ?_⟩
  rw [← I.dropped hok.B0]
  exact I.place

/-- Twelve inserts and a flush on a file of four pages. -/
example : ((runOps demo demo0 noIdx (demoPuts ++ [Op.flush])).check fun (d, _) =>
    d.next = 6 ∧ d.min = 2 ∧ (Spec.writes d.dev.log).map (·.1) = [0, 1, 2, 3, 0, 1]) = true := by
  decide +kernel

/-! ## C43 -/

/-- C43 (`_partial`: a table started on a new file; false after reopening, `C43_false_reopen`).  For every history: every page write
goes to a page never written before or erased since it was last written. -/
theorem C43_erase_before_write_partial (c : Cfg) (K : Nat) (ops : List Op) (rb : Page) (sm : Nat → Nat × Nat)
    (x x' : Idx) (d : Data) (hok : c.Ok K) (h : runOps c (Data.fresh c rb sm) x ops = .ok (d, x')) :
    Spec.ErasedFirst (fun _ => False) d.dev.log :=
  (runOps_induct (I := Kept c) (Q := fun _ => True)
    (fun _ _ _ _ _ _ I _ e => I.step hok e) ops _ _ _ _ (Kept.fresh hok rb sm) (by simp) h).clean

/-- `ErasedFirst` is not trivial: writing page 0 twice violates it. -/
example (p : Page) : ¬ Spec.ErasedFirst (fun _ => False) [.write 0 p, .write 1 p, .erase 1 2, .write 0 p] := by
  simp [Spec.ErasedFirst]

/-! ## C10 -/

/-- C10 (`_partial`: for `Cfg.Ok`, i.e. pages of at least `14 + 2*keySize + dataSize … ` bytes, `C10_false_tiny_page`
otherwise; header fields inside the header, C22).  For every history with well-sized data, whatever the keys: every
page written and every block erased lies inside the file, the write buffer never holds more records than fit, and no
byte was stored beyond the page size in the write buffer or in any page written. -/
theorem C10_in_bounds_partial (c : Cfg) (K : Nat) (ops : List Op) (rb : Page) (sm : Nat → Nat × Nat) (x x' : Idx)
    (d : Data) (hok : c.Ok K) (hd : ∀ k v, Op.put k v ∈ ops → v.length = c.dataSize)
    (h : runOps c (Data.fresh c rb sm) x ops = .ok (d, x')) :
    (∀ ph p, Ev.write ph p ∈ d.dev.log → ph < c.N ∧ ∀ i, c.pageSize ≤ i → p i = 0) ∧
    (∀ lo hi, Ev.erase lo hi ∈ d.dev.log → lo < hi ∧ hi ≤ c.N) ∧
    c.hdr + pageCount d.wbuf * c.recSize ≤ c.pageSize ∧ pageCount d.wbuf ≤ c.maxRec ∧
    (∀ i, c.pageSize ≤ i → d.wbuf i = 0) := by
  have I : InBounds c d := runOps_induct (I := InBounds c) (Q := fun op => ∀ k v, op = .put k v → v.length = c.dataSize)
    (fun _ _ _ _ _ _ I q e => I.step hok q e) ops _ _ _ _ (InBounds.fresh hok rb sm)
    (by rintro op hop k v rfl; exact hd k v hop) h
  refine ⟨fun ph p hw => ⟨I.log _ hw, I.pages _ _ hw⟩, fun lo hi he => I.log _ he, ?_, I.count, I.buf⟩
  have hh := hdr_lt hok.cap
  have h1 : pageCount d.wbuf * c.recSize ≤ c.maxRec * c.recSize := Nat.mul_le_mul_right _ I.count
  have h2 : c.maxRec * c.recSize ≤ c.pageSize - c.hdr := by
    unfold Cfg.maxRec
    exact Nat.div_mul_le_self _ _
  omega

/-! ## C45, C09 -/

/-- C45 (`_partial`: `Cfg.Ok` configurations on a new file, and key ranges/page counts within `Bounds`).  After every
history of an ascending client, whatever it read in between and whatever was in the read cache, with `L` the log of the inserts that returned 0:
the retained pages `l` are stored at `l % N`, carry `l` in their header, hold exactly the records of page `l` of `L`, at least one, the write
buffer holds the remaining records of `L`, and all of it is in strictly ascending key order. -/
theorem C45_sorted_storage_partial (c : Cfg) (lo K : Nat) (ops : List Op) (rb : Page) (sm : Nat → Nat × Nat)
    (x x' : Idx) (d : Data) (hok : c.Ok K) (hB : Bounds c lo K ops.length) (hW : Writer c lo K ops)
    (h : runOps c (Data.fresh c rb sm) x ops = .ok (d, x')) :
    let L := Spec.logAfter c.maxRec Log.empty (history c (Data.fresh c rb sm) x ops)
    d.next = L.pages.length ∧ d.min = Spec.dropped c.N c.B L.pages.length ∧
    (∀ l, d.min ≤ l → ∀ hl : l < L.pages.length, ∃ p, d.dev.file (l % c.N) = some p ∧ Spec.pageNo p = l ∧
      Spec.pageRecs c.hdr c.recSize c.keySize c.dataSize p = L.pages[l] ∧ L.pages[l] ≠ []) ∧
    Spec.pageRecs c.hdr c.recSize c.keySize c.dataSize d.wbuf = L.buf ∧
    L.all.Pairwise (fun r s => r.1 < s.1) := by
  intro L
  obtain ⟨T, hn⟩ := core_ok hok (Or.inl rfl) hB ops _ d x x' Log.empty (fresh_table hok rb sm).clr (by simp [Data.fresh]) hW
    (by simp [Log.all, Log.empty]) h
  have T : Table c lo K (clr d) L := T
  have hnl : d.next = L.pages.length := T.sim.next
  have hdrop : (clr d).min = Spec.dropped c.N c.B L.pages.length := T.dropped hok.B0
  refine ⟨hnl, hdrop, ?_, ?_, T.sim.sorted⟩
  · intro l h1 hl
    obtain ⟨p, h2, h3, h4⟩ := T.sim.stored l h1 hl
    refine ⟨p, h2, ?_, by rw [← recs_spec]; exact h3, T.sim.full _ (List.getElem_mem hl)⟩
    rw [← pageId_spec, h4]
    apply Nat.mod_eq_of_lt
    have := hB.pages
    have : (Data.fresh c rb sm).next = 0 := rfl
    omega
  · rw [← recs_spec]; exact T.sim.buf

/-- The records on the device, page by page. -/
theorem storedRecs_eq {c : Cfg} {file : Nat → Option Page} {pages : List (List Rec)} (m : Nat) (hm : m ≤ pages.length)
    (h : ∀ l, m ≤ l → ∀ hl : l < pages.length, ∃ p, file (l % c.N) = some p ∧ recs c p = pages[l]) :
    Spec.storedRecs (recs c) file c.N m (pages.length - m) = (pages.drop m).flatten := by
  unfold Spec.storedRecs
  congr 1
  apply List.ext_getElem
  · simp
  · intro i h1 h2
    simp only [List.length_map, List.length_range] at h1
    obtain ⟨p, h3, h4⟩ := h (m + i) (by omega) (by omega)
    simp only [List.getElem_map, List.getElem_range, List.getElem_drop]
    rw [h3, ← h4]; rfl

/-- C09 (same configurations as C45).  After every history of an ascending client, a flush returns 0; the log of inserted records is
unchanged except that the buffered records now form a page; the retained records are the same as before unless no
page was free, in which case exactly the oldest `B` pages are gone; and all retained records are on the device, in order,
with nothing left in the write buffer. -/
theorem C09_flush_partial (c : Cfg) (lo K : Nat) (ops : List Op) (rb : Page) (sm : Nat → Nat × Nat) (x x' : Idx)
    (d : Data) (hok : c.Ok K) (hB : Bounds c lo K (ops.length + 1)) (hW : Writer c lo K ops)
    (h : runOps c (Data.fresh c rb sm) x ops = .ok (d, x')) :
    let L := Spec.logAfter c.maxRec Log.empty (history c (Data.fresh c rb sm) x ops)
    ∃ d' w, flushD c d = .ok (d', 0, w) ∧ L.flush.all = L.all ∧
      Spec.storedRecs (Spec.pageRecs c.hdr c.recSize c.keySize c.dataSize) d'.dev.file c.N d'.min (d'.next - d'.min) =
        L.flush.live d'.min ∧
      Spec.pageRecs c.hdr c.recSize c.keySize c.dataSize d'.wbuf = [] ∧
      (L.flush.live d'.min = L.live d.min ∨ (d.next - d.min = c.N ∧ L.flush.live d'.min = L.live (d.min + c.B))) := by
  intro L
  have hB' : Bounds c lo K ops.length := ⟨lt_of_le_of_lt (Nat.mul_le_mul_left _ (by omega)) hB.prod, by have := hB.pages; omega, hB.key⟩
  obtain ⟨T, hn⟩ := core_ok hok (Or.inl rfl) hB' ops _ d x x' Log.empty (fresh_table hok rb sm).clr (by simp [Data.fresh]) hW
    (by simp [Log.all, Log.empty]) h
  have T : Table c lo K (clr d) L := T
  have hn0 : (Data.fresh c rb sm).next = 0 := rfl
  obtain ⟨d', h1, T', h2⟩ := T.core_flush hok (Or.inl rfl) hB (d := d) (by omega)
  have hrec : Spec.pageRecs c.hdr c.recSize c.keySize c.dataSize = recs c := by funext p; rw [recs_spec]
  have hbuf : L.flush.buf = [] := by unfold Log.flush; split_ifs with hb <;> simp [hb]
  have hflive : ∀ m, m ≤ L.pages.length → L.flush.live m = L.live m := by
    intro m hm
    unfold Log.flush Log.live
    split_ifs with hb
    · rfl
    · simp only [List.append_nil]
      rw [List.drop_append_of_le_length hm, List.flatten_append]
      simp
  have hnx : d.next = L.pages.length := T.sim.next
  have hml : d.min ≤ d.next := T.sim.minle
  have hnx' : d'.next = L.flush.pages.length := T'.sim.next
  refine ⟨d', _, h1, Log_flush_all, ?_, ?_, ?_⟩
  · rw [hrec, hnx']
    have := storedRecs_eq (c := c) (file := d'.dev.file) (pages := L.flush.pages) d'.min
      (by rw [← hnx']; exact T'.sim.minle) (fun l h3 h4 => by
        obtain ⟨p, h5, h6, _⟩ := T'.sim.stored l h3 h4
        exact ⟨p, h5, h6⟩)
    rw [this]
    unfold Log.live
    rw [hbuf, List.append_nil]
  · rw [hrec]
    have := T'.sim.buf
    rw [hbuf] at this
    exact this
  · by_cases hb : L.buf = []
    · rw [if_pos hb] at h2
      subst h2
      left
      exact hflive _ (by omega)
    · rw [if_neg hb] at h2
      subst h2
      have hm : (sealed c d).min = outMin c d := rfl
      rw [hm]
      have hs : d.next + d.avail = d.min + c.N := T.room.sum
      unfold outMin
      have := hok.two
      split_ifs with ha
      · right
        exact ⟨by omega, hflive _ (by omega)⟩
      · left
        exact hflive _ (by omega)

/-- The hypotheses of C45 and C09 hold of the twelve inserts. -/
example : Writer demo 0 1000 demoPuts ∧ ((runOps demo demo0 noIdx demoPuts).check fun (d, _) =>
    d.next = 5 ∧ d.min = 2 ∧ (recs demo d.wbuf).map (·.1) = [11, 12]) = true := by
  refine ⟨⟨by decide +kernel, ?_⟩, by decide +kernel⟩
  intro k v h
  have := demo_client.put k v (by simp [h])
  exact this

/-! ## C42 -/

/-- C42 for `embedDBFlush` (`_partial`: false for `embedDBPut`, `C42_false_put`, and the page number is used up,
`C42_false_retry`).  Whatever the configuration, the state and the failures of the device: if there is something to
flush, either the call returns 0 and a page with exactly the buffered records has been written, or it returns -1,
nothing was written and the buffered records are still in the write buffer. -/
theorem C42_flush_partial (c : Cfg) (d d' : Data) (r : Int) (w : Bool)
    (hne : pageCount d.wbuf ≠ 0) (h : flushD c d = .ok (d', r, w)) :
    let recsOf := Spec.pageRecs c.hdr c.recSize c.keySize c.dataSize
    (r = 0 ∧ recsOf d'.wbuf = [] ∧
      ∃ p, Spec.writes d'.dev.log = Spec.writes d.dev.log ++ [(d.next % c.N, p)] ∧ recsOf p = recsOf d.wbuf ∧
        d'.dev.file (d.next % c.N) = some p) ∨
    (r = -1 ∧ recsOf d'.wbuf = recsOf d.wbuf ∧ Spec.writes d'.dev.log = Spec.writes d.dev.log) := by
  intro recsOf
  have hrec : recsOf = recs c := by funext p; exact (recs_spec c p).symm
  rw [hrec]
  unfold flushD at h
  rw [if_neg (by omega)] at h
  obtain ⟨⟨d1, pn⟩, h1, h⟩ := Res.bind_eq_ok h
  -- what writePage did
  have hout : recs c (outPage d) = recs c d.wbuf := (sameRecs_id c d.wbuf d.next).recs
  have hw : (pn = some d.next ∧ d1.wbuf = outPage d ∧
        Spec.writes d1.dev.log = Spec.writes d.dev.log ++ [(d.next % c.N, outPage d)] ∧
        d1.dev.file (d.next % c.N) = some (outPage d)) ∨
      (pn = none ∧ d1.wbuf = outPage d ∧ Spec.writes d1.dev.log = Spec.writes d.dev.log) := by
    unfold writePage at h1
    simp only at h1
    by_cases ha : d.avail = 0
    · rw [if_pos ha] at h1
      by_cases he : c.ioOk d.dev.reqs = true
      · simp only [Dev.erase, he, if_true] at h1
        obtain ⟨d2, h2, h1⟩ := Res.bind_eq_ok h1
        have h3 : d2.dev = (d.dev.erase c (d.next % c.N) (d.next % c.N + c.B)).1 ∧ d2.wbuf = outPage d := by
          unfold cleanStep at h2
          split_ifs at h2 <;> cases h2 <;> exact ⟨by simp [Dev.erase, he], rfl⟩
        have h4 : Spec.writes d2.dev.log = Spec.writes d.dev.log := by
          rw [h3.1]; simp [Dev.erase, he, writes_append, Spec.writes]
        by_cases hw : c.ioOk d2.dev.reqs = true
        · simp only [Dev.write, hw, if_true] at h1
          cases h1
          left
          refine ⟨rfl, h3.2, ?_, ?_⟩
          · simp [writes_append, Spec.writes, h4, h3.2]
          · simp [h3.2]
        · simp only [Dev.write, hw, Bool.false_eq_true, if_false] at h1
          cases h1
          right
          exact ⟨rfl, h3.2, h4⟩
      · simp only [Dev.erase, he, Bool.false_eq_true, if_false] at h1
        cases h1
        right
        exact ⟨rfl, rfl, rfl⟩
    · rw [if_neg ha] at h1
      by_cases hw : c.ioOk d.dev.reqs = true
      · simp only [Dev.write, hw, if_true] at h1
        cases h1
        left
        refine ⟨rfl, rfl, ?_, ?_⟩
        · simp [writes_append, Spec.writes, outPage]
        · simp [outPage]
      · simp only [Dev.write, hw, Bool.false_eq_true, if_false] at h1
        cases h1
        right
        exact ⟨rfl, rfl, rfl⟩
  rcases hw with ⟨rfl, h2, h3, h4⟩ | ⟨rfl, h2, h3⟩
  · left
    simp only [Res.ok.injEq, Prod.mk.injEq] at h
    obtain ⟨rfl, rfl, _⟩ := h
    refine ⟨rfl, recs_init c, outPage d, ?_, hout, ?_⟩
    · rw [← h3]; unfold indexPage; split_ifs <;> rfl
    · rw [← h4]; unfold indexPage; split_ifs <;> rfl
  · right
    simp only [Res.ok.injEq, Prod.mk.injEq] at h
    obtain ⟨rfl, rfl, _⟩ := h
    exact ⟨rfl, by rw [h2, hout], h3⟩

/-- Both cases occur: a device that refuses its first request, and one that does not. -/
example : ((runOps demo demo0 noIdx [.put 1 (dat 1)]).check fun (d, _) => pageCount d.wbuf ≠ 0 ∧
    (flushD { demo with ioOk := fun n => n != 0 } d).check (fun x => x.2.1 = -1) ∧
    (flushD demo d).check (fun x => x.2.1 = 0)) = true := by
  decide +kernel

end EDB
