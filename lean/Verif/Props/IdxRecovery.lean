import Verif.Proofs.IdxLife
import Verif.Props.Index
import Verif.Props.Recovery

/-!
# C54: the index file after a power failure

A table with an index file may be cut off at any storage operation, of the data file or of the index file, and reopened, any number of
times (`LifeX`).
-/

namespace EDB

open Spec (Log Range Op Out)

/-- The assumptions: those of the recovery of the data file (`Durable`), an index with sound bitmap functions (`Cfg.IdxOk`), page
numbers of 32 bits for the index file, and an erase that leaves all pages as they are or marks all of them. -/
structure DurableX (c : Cfg) (lo K P : Nat) : Prop extends Durable c lo K P where
  idx : c.IdxOk
  idx32 : c.numIdx < 2 ^ 32
  eraserX : EraserX c P

section
variable {c : Cfg} {lo K P : Nat} {d : Data} {x : Idx} {L : Log}

/-- What holds at every moment of every life. -/
theorem DurableX.life (D : DurableX c lo K P) (h : LifeX c lo K P d x L) :
    Journal c d L ∧ d.next < P ∧ IdxFile c x L ∧ ∃ m, (m = 0 ∨ c.maxErr ≤ 1) ∧ c.B ∣ m ∧
      m ≤ Spec.dropped c.N c.B L.pages.length + c.B ∧ (L.pages.length ≤ c.N → m = 0) ∧ TableX c lo K m d x L :=
  h.ok D.ok D.idx D.idx32 D.bounds (by have := D.bounds.pages; omega) D.recs127 D.file32 D.eraser D.eraserX D.spline D.pos

/-- C54 (`_partial`: `LifeX` excludes, besides what C18 excludes for either file, flushes that do not complete an index page and index pages
overwritten while in the read cache (as in C23), and writing index pages while there are data pages without bitmap; the last is where the claim is false,
`C54_false_hidden`).

Power fails during any operation of any life of the table, after `k` storage operations on the data file and `j` on the
index file.  Reopening succeeds and changes nothing on either device; the data pages are the ones written by then; the index continues with the
number of the next index page, and knows index pages without gap up to the newest one, at least all those of the latest round through the index file and,
where erasing leaves pages as they are, all that have not been overwritten; each is in its place and with its number, all of them about data pages that
are still known to exist; nothing is left in the index write buffer. -/
theorem C54_reopen_partial (D : DurableX c lo K P) (h : LifeX c lo K P d x L) {op : Op} {o : Out} {d' : Data} {x' : Idx}
    (A : AllowedX c lo K P d x L op) (e : stepX c d x op = .ok (d', x', o)) (k j : Nat) (hm : Moment d x d' k j)
    (hk : SafeCut c d'.dev k) (hj : SafeCut c x'.dev j) (rb : Page) (sm : Nat → Nat × Nat) (rb' : Page) :
    ∃ d'' x'', reopenX c d'.dev x'.dev k j rb sm rb' = (d'', x'', 0) ∧
      LifeX c lo K P d'' x'' (cutLog (Spec.logAfter c.maxRec L [(op, some o)]) d'.dev k) ∧
      d''.dev.file = Spec.image c.eraseFx (d'.dev.log.take k) ∧ x''.dev.file = Spec.image c.eraseFx (x'.dev.log.take j) ∧
      d''.next = (Spec.writes (d'.dev.log.take k)).length ∧ x''.next = (Spec.writes (x'.dev.log.take j)).length ∧
      (∀ r, r * c.numIdx < x''.next → x''.next ≤ (r + 1) * c.numIdx → x''.min ≤ r * c.numIdx) ∧
      ((∀ q, c.eraseFx (some q) = some q) → x''.min = x''.next - c.numIdx) ∧
      x''.next + x''.avail = x''.min + c.numIdx ∧ x''.next * c.maxIdx ≤ d''.next ∧ Spec.uval (Spec.bytes x''.wbuf 4 2) = 0 ∧
      (∀ i, x''.min ≤ i → i < x''.next → ∃ p, x''.dev.file (i % c.numIdx) = some p ∧ Spec.pageNo p = i) := by
  have h2 := LifeX.op h A e
  have hP32 : P ≤ 2 ^ 32 := by have := D.bounds.pages; omega
  obtain ⟨d'', x'', e'⟩ := reopenX_ok D.ok D.idx D.idx32 D.bounds hP32 D.recs127 D.file32 D.eraser D.eraserX D.spline D.pos
    h2 k hk x'.dev j rb sm rb'
  have h3 := LifeX.cut h A e k j hm rb sm rb' hk hj e'
  obtain ⟨J, hlt, F, m, _, _, _, _, T⟩ := D.life h3
  obtain ⟨J1, hlt1, F1, m1, _, _, _, _, T1⟩ := D.life h2
  have hn1 := T1.table.sim.next
  obtain ⟨d1, n, g1, g2, g3, g4, g5, g6, g7, g8, g9, g10⟩ := reopen_ok D.ok D.bounds hP32 D.recs127 D.file32 D.eraser J1
    T1.table.sim.sorted T1.table.sim.bound T1.table.sim.full T1.table.cap (by omega) k hk rb sm
  have e1 : d1 = d'' ∧ x'' = recoverIdx c (Idx.opening c (cutDev c x'.dev j) rb' d1.next) := by
    unfold reopenX openX at e'
    unfold reopen at g1
    simp only [g1] at e'
    rw [if_neg (by simp)] at e'
    cases e'
    exact ⟨rfl, rfl⟩
  obtain ⟨rfl, e2⟩ := e1
  have hw : (Spec.writes (x'.dev.log.take j)).length * c.maxIdx ≤ (Spec.logAfter c.maxRec L [(op, some o)]).pages.length := by
    obtain ⟨ps, l1, l2, _⟩ := F1.log
    obtain ⟨w, hw, l4⟩ := l1.take j
    have hlen : (Spec.writes (x'.dev.log.take j)).length = w := by
      have := congrArg List.length l4.pages
      rw [wrote_length, List.length_take] at this
      omega
    have := T1.idx.pages
    have h3 : w * c.maxIdx ≤ x'.next * c.maxIdx := Nat.mul_le_mul_right _ (by omega)
    rw [hlen]
    omega
  have hwP : (Spec.writes (x'.dev.log.take j)).length < P := by
    have := Nat.le_mul_of_pos_right (Spec.writes (x'.dev.log.take j)).length D.idx.cap
    omega
  obtain ⟨_, _, r3, r4, r5, r6, r7, r8⟩ := F1.reopen D.idx D.ok.B0 D.idx32 hP32 D.eraserX hw (le_refl _) hwP hj rb' d1.next
  rw [← e2] at r3 r4 r5 r6 r7 r8
  have hs := T.idx.sum
  have hp := T.idx.pages
  have hn := T.table.sim.next
  refine ⟨d1, x'', e', h3, by rw [g5]; rfl, by rw [r5]; rfl, by rw [g6, g2], r3, ?_, fun hq => by rw [r7 hq, r3], hs, by omega, ?_, ?_⟩
  · intro r hr1 hr2
    rw [← r3] at r6
    have : lap c.numIdx x''.next = r * c.numIdx := by
      unfold lap
      have h0 := D.idx.num0 D.ok.B0
      rw [Nat.add_mul, Nat.one_mul] at hr2
      rw [show x''.next - 1 = c.numIdx * r + (x''.next - 1 - c.numIdx * r) by rw [Nat.mul_comm c.numIdx r]; omega, Nat.mul_add_div h0,
        Nat.div_eq_of_lt (by rw [Nat.mul_comm c.numIdx r]; omega), Nat.add_zero]
    omega
  · rw [uval_eq]; exact r4
  · -- the pages on file
    intro i hi1 hi2
    rw [r3] at hi2
    obtain ⟨p, p1, p2⟩ := r8 i hi1 hi2
    exact ⟨p, by rw [r5]; exact p1, by rw [← pageId_spec]; exact p2⟩

/-- C54 (`_partial`, as `C54_reopen_partial`): at every moment of every life of the table, every scan by any key and data bounds returns
exactly the retained records within the bounds, the same rows as the scan that does not consult the index.  Retained is
everything from page `d.min` on, which is whole blocks and at most one block more than what had to be dropped to make room. -/
theorem C54_scan_partial (D : DurableX c lo K P) (h : LifeX c lo K P d x L) (q : Range) (hq : KeysOk K q) :
    (∃ d' x' d'', scanAll c d x q = .ok (d', x', Spec.scan c.cmpData q (L.live d.min)) ∧
      scanAll { c with useBmap := false } d x q = .ok (d'', x, Spec.scan c.cmpData q (L.live d.min))) ∧
    c.B ∣ d.min ∧ Spec.dropped c.N c.B L.pages.length ≤ d.min ∧ d.min ≤ Spec.dropped c.N c.B L.pages.length + c.B ∧
    (L.pages.length ≤ c.N → L.live d.min = L.all) := by
  obtain ⟨J, hlt, F, m, hm, hd, hm1, hm2, T⟩ := D.life h
  have hdm := T.table.dropped_max D.ok.B0 hd
  refine ⟨?_, T.table.room.dvd, ?_, ?_, ?_⟩
  · obtain ⟨d', x', e, _⟩ := scanAll_idx D.idx D.ok.B0 D.ok.cmp D.ok.N0 D.bounds D.ok.spline T.table.sim T.idx (by omega) T.table.cap hq
    have S := T.table.sim
    have S' : Sim { c with useBmap := false } lo K m d L :=
      ⟨S.next, S.amin, S.minle, S.live, S.window, S.stored, S.buf, S.full, S.sorted, S.bound, S.spl, S.err, S.cacheN, S.cache⟩
    obtain ⟨d'', e', _⟩ := scanAll_ok (c := { c with useBmap := false }) (lo := lo) D.ok.cmp D.ok.N0
      ⟨D.bounds.prod, D.bounds.pages, D.bounds.key⟩ D.ok.spline rfl S' (by omega) T.table.cap x hq
    exact ⟨d', x', d'', e, e'⟩
  · omega
  · omega
  · intro hN
    rw [hdm, hm2 hN, Nat.zero_max]
    unfold Spec.dropped
    rw [if_pos hN, Log_live_zero]

/-- C54 (`_partial`, as `C54_reopen_partial`): every further operation of a client that sticks to the rules succeeds and its result is the one
the log prescribes. -/
theorem C54_operation_partial (D : DurableX c lo K P) (h : LifeX c lo K P d x L) {op : Op} (A : AllowedX c lo K P d x L op) :
    ∃ d' x' o, stepX c d x op = .ok (d', x', o) ∧ LifeX c lo K P d' x' (Spec.logAfter c.maxRec L [(op, some o)]) ∧
      Spec.Run (fun _ => True) (fun l => l.live d.min) c.maxRec c.cmpData L [(op, some o)] := by
  obtain ⟨J, hlt, F, m, hm, hd, hm1, hm2, T⟩ := D.life h
  obtain ⟨d', x', o, e, _, hr⟩ := T.op D.ok D.idx hm D.bounds (by have := D.recs127; omega) A
  exact ⟨d', x', o, e, LifeX.op h A e, hr⟩

end

/-! ## Examples -/

/-- `AllowedX` for inserts, as a check. -/
def allowedPut (c : Cfg) (lo K P : Nat) (d : Data) (x : Idx) (L : Log) : Op → Bool
  | .put k v => decide (lo ≤ k ∧ k < K ∧ v.length = c.dataSize ∧ (∀ r ∈ L.all, r.1 < k) ∧
      (pageCount d.wbuf ≥ c.maxRec → d.buffered ≠ some (d.next % c.N)) ∧ d.next + 1 < P ∧
      (pageCount d.wbuf ≥ c.maxRec ∧ pageCount x.wbuf ≥ c.maxIdx → x.next * c.maxIdx + pageCount x.wbuf = d.next ∧ x.buffered ≠ some (x.next % c.numIdx)))
  | _ => false

theorem allowedPut_ok {c : Cfg} {lo K P : Nat} {d : Data} {x : Idx} {L : Log} {op : Op} (h : allowedPut c lo K P d x L op = true) :
    AllowedX c lo K P d x L op := by
  cases op with
  | put k v =>
    obtain ⟨h1, h2, h3, h4, h5, h6, h7⟩ := of_decide_eq_true h
    exact ⟨fun _ _ e => by cases e; exact ⟨h1, h2, h3, h4, h5⟩, by simp, by simp, by simp, h6, h7⟩
  | flush => cases h
  | get k => cases h
  | scan q => cases h

/-- A run of inserts, all of them allowed. -/
def runPuts (c : Cfg) (lo K P : Nat) : Data → Idx → Log → List Op → Option (Data × Idx × Log)
  | d, x, L, [] => some (d, x, L)
  | d, x, L, op :: ops =>
    if allowedPut c lo K P d x L op then
      match stepX c d x op with
      | .ok (d', x', o) => runPuts c lo K P d' x' (Spec.logAfter c.maxRec L [(op, some o)]) ops
      | _ => none
    else none

theorem LifeX.puts {c : Cfg} {lo K P : Nat} : ∀ (ops : List Op) {d : Data} {x : Idx} {L : Log}, LifeX c lo K P d x L →
    ∀ {r}, runPuts c lo K P d x L ops = some r → LifeX c lo K P r.1 r.2.1 r.2.2 := by
  intro ops
  induction ops with
  | nil => intro d x L h r e; cases e; exact h
  | cons op ops ih =>
    intro d x L h r e
    unfold runPuts at e
    split_ifs at e with ha
    split at e
    · rename_i d' x' o h1
      exact ih (LifeX.op h (allowedPut_ok ha) h1) e
    · cases e

theorem demoIdx_durable (P : Nat) (h0 : 0 < P) (hP : P < 2 ^ 30) : DurableX demoIdx 0 1000 P :=
  { ok := demoIdx_ok _, bounds := demoIdx_bounds (by decide) hP, pos := h0, recs127 := by decide, file32 := by decide
    eraser := demo_eraser P, spline := Or.inl (by decide), idx := demoIdx_idxOk, idx32 := by decide, eraserX := Or.inl fun _ => rfl }

/-- The theorems apply to a table of 24 inserts cut off during the 25th, after the data page and the first index page had been written (12
data pages; the bitmaps of two of them were still in memory): reopened, it finds the 8 records retained, and a filtered scan uses the recovered index page to skip
two of the four pages. -/
example : ∃ d x op o d' x' L d'' x'', LifeX demoIdx 0 1000 100 d x L ∧ AllowedX demoIdx 0 1000 100 d x L op ∧
    stepX demoIdx d x op = .ok (d', x', o) ∧ Moment d x d' d'.dev.log.length 1 ∧ SafeCut demoIdx d'.dev d'.dev.log.length ∧
    reopenX demoIdx d'.dev x'.dev d'.dev.log.length 1 (fun _ => 0) (fun _ => (0, 0)) (fun _ => 0) = (d'', x'', 0) ∧
    d''.next = 12 ∧ d''.min = 8 ∧ x''.next = 1 ∧ pageCount x'.wbuf = 2 ∧ pageCount x''.wbuf = 0 ∧
    ∃ e y, scanAll demoIdx d'' x'' hot = .ok (e, y, [(24, dat 84)]) ∧ e.numReads = d''.numReads + 2 := by
  have h : ((runPuts demoIdx 0 1000 100 demoIdx0 demoIdxX0 Log.empty (demoIdxPuts.take 24)).any fun (d, x, L) =>
      let op : Op := .put 25 (dat 0)
      allowedPut demoIdx 0 1000 100 d x L op && (stepX demoIdx d x op).check fun (d', x', o) =>
        decide (d.dev.log.length ≤ d'.dev.log.length ∧ x.dev.log.length = 1 ∧ pageCount x'.wbuf = 2) &&
        let r := reopenX demoIdx d'.dev x'.dev d'.dev.log.length 1 (fun _ => 0) (fun _ => (0, 0)) (fun _ => 0)
        decide (r.2.2 = 0 ∧ r.1.next = 12 ∧ r.1.min = 8 ∧ r.2.1.next = 1 ∧ pageCount r.2.1.wbuf = 0) &&
        (scanAll demoIdx r.1 r.2.1 hot).check fun (e, _, rs) => decide (rs = [(24, dat 84)] ∧ e.numReads = r.1.numReads + 2)) = true := by
    decide +kernel
  obtain ⟨⟨d, x, L⟩, h1, h2⟩ := (Option.any_eq_true _ _).mp h
  simp only [Bool.and_eq_true] at h2
  obtain ⟨ha, h2⟩ := h2
  obtain ⟨⟨d', x', o⟩, h3, h4⟩ := Res.check_ok h2
  simp only [Bool.and_eq_true] at h4
  obtain ⟨h4, h5, h6⟩ := h4
  obtain ⟨⟨e, y, rs⟩, h7, h8⟩ := Res.check_ok h6
  obtain ⟨a1, a2, a3⟩ := of_decide_eq_true h4
  obtain ⟨b1, b2, b3, b4, b5⟩ := of_decide_eq_true h5
  obtain ⟨c1, c2⟩ := of_decide_eq_true h8
  subst c1
  have hl := LifeX.puts _ (LifeX.new (c := demoIdx) (lo := 0) (K := 1000) (P := 100) (fun _ => 0) (fun _ => (0, 0)) (fun _ => 0)) h1
  exact ⟨d, x, .put 25 (dat 0), o, d', x', L, _, _, hl, allowedPut_ok ha, h3, ⟨a1, Or.inl a2.symm⟩, Or.inr fun q => rfl, Prod.ext rfl (Prod.ext rfl b1), b2, b3, b4,
    a3, b5, e, y, h7, c2⟩

/-- `demoIdx` with a data file of 60 pages and the given erase. -/
def wideIdx (fx : Option Page → Option Page) : Cfg := { demoIdx with N := 60, eraseFx := fx }

theorem wideIdx_durable (fx : Option Page → Option Page) (P : Nat) (h0 : 0 < P) (hP : P < 2 ^ 30) (hE : EraserX (wideIdx fx) P) :
    DurableX (wideIdx fx) 0 1000 P :=
  have hb := demoIdx_bounds (lo := 0) (K := 1000) (P := P) (by decide) hP
  have ho := demoIdx_ok 1000
  have hi := demoIdx_idxOk
  { ok := ⟨ho.B0, (by decide : 2 ∣ 60), (by decide : 2 * 2 ≤ 60), ho.page, ho.cap, ho.cap16, ho.spl, ⟨ho.layout.1, ho.layout.2, ho.layout.3⟩, ho.cmp, rfl, rfl, fun _ => rfl⟩
    bounds := ⟨hb.prod, hb.pages, hb.key⟩, pos := h0, recs127 := (by decide : demoIdx.maxRec ≤ 127), file32 := (by decide : 60 < 2 ^ 32)
    eraser := by
      intro q
      rcases hE with h | h
      · exact ⟨q, h q, Or.inl rfl⟩
      · obtain ⟨e, h1, h2⟩ := h q
        exact ⟨e, h1, Or.inr h2⟩
    spline := Or.inl (by decide : demoIdx.maxErr ≤ 1)
    idx := ⟨hi.sound, rfl, rfl, hi.maxMin, hi.bm0, hi.cap, hi.page, hi.dvd, hi.two⟩
    idx32 := (by decide : 4 < 2 ^ 32), eraserX := hE }

/-- 103 inserts: 51 data pages, 5 index pages in a file of 4. -/
def widePuts : List Op := (List.range 103).map fun i => .put (i + 1) (dat (UInt8.ofNat (i / 10 % 8 * 12)))

/-- The last storage operation was not an erase. -/
def lastKept (v : Dev) : Bool := match v.log.getLast? with | some (.erase _ _) => false | _ => true

theorem lastKept_safe {c : Cfg} {v : Dev} (h : lastKept v = true) : SafeCut c v v.log.length := by
  refine Or.inl fun hi e => ?_
  rw [List.take_length] at e
  unfold lastKept at h
  rw [e] at h
  cases h

/-- What is checked in the next two examples: 103 inserts, power failure with everything written on the device during the next insert, reopening. -/
def wideCheck (fx : Option Page → Option Page) (oldest reads : Nat) : Bool :=
  (runPuts (wideIdx fx) 0 1000 100 (Data.fresh (wideIdx fx) (fun _ => 0) (fun _ => (0, 0))) (Idx.fresh (wideIdx fx) (fun _ => 0)) Log.empty widePuts).any
    fun (d, x, L) =>
      let op : Op := .put 104 (dat 0)
      allowedPut (wideIdx fx) 0 1000 100 d x L op && (stepX (wideIdx fx) d x op).check fun (d', x', _) =>
        decide (d.dev.log.length ≤ d'.dev.log.length ∧ x.dev.log.length = x'.dev.log.length) &&
        lastKept x'.dev && lastKept d'.dev &&
        let r := reopenX (wideIdx fx) d'.dev x'.dev d'.dev.log.length x'.dev.log.length (fun _ => 0) (fun _ => (0, 0)) (fun _ => 0)
        decide (r.2.2 = 0 ∧ r.1.next = 51 ∧ r.1.min = 0 ∧ r.2.1.next = 5 ∧ r.2.1.min = oldest) &&
        (scanAll (wideIdx fx) r.1 r.2.1 hot).check fun (e, _, rs) =>
          decide ((rs.map Prod.fst) = [71, 72, 73, 74, 75, 76, 77, 78, 79, 80] ∧ e.numReads = r.1.numReads + reads)

/-- What the check says in terms of the theorems. -/
def WideLife (fx : Option Page → Option Page) (oldest reads : Nat) : Prop :=
  ∃ d x op o d' x' L d'' x'', LifeX (wideIdx fx) 0 1000 100 d x L ∧ AllowedX (wideIdx fx) 0 1000 100 d x L op ∧
    stepX (wideIdx fx) d x op = .ok (d', x', o) ∧ Moment d x d' d'.dev.log.length x'.dev.log.length ∧
    SafeCut (wideIdx fx) d'.dev d'.dev.log.length ∧ SafeCut (wideIdx fx) x'.dev x'.dev.log.length ∧
    reopenX (wideIdx fx) d'.dev x'.dev d'.dev.log.length x'.dev.log.length (fun _ => 0) (fun _ => (0, 0)) (fun _ => 0) = (d'', x'', 0) ∧
    d''.next = 51 ∧ d''.min = 0 ∧ x''.next = 5 ∧ x''.min = oldest ∧
    ∃ e y rs, scanAll (wideIdx fx) d'' x'' hot = .ok (e, y, rs) ∧ rs.map Prod.fst = [71, 72, 73, 74, 75, 76, 77, 78, 79, 80] ∧
      e.numReads = d''.numReads + reads

theorem wideCheck_ok {fx : Option Page → Option Page} {oldest reads : Nat} (h : wideCheck fx oldest reads = true) :
    WideLife fx oldest reads := by
  unfold wideCheck at h
  obtain ⟨⟨d, x, L⟩, h1, h2⟩ := (Option.any_eq_true _ _).mp h
  simp only [Bool.and_eq_true] at h2
  obtain ⟨ha, h2⟩ := h2
  obtain ⟨⟨d', x', o⟩, h3, h4⟩ := Res.check_ok h2
  simp only [Bool.and_eq_true] at h4
  obtain ⟨⟨⟨h4, hk1⟩, hk2⟩, h5, h6⟩ := h4
  obtain ⟨⟨e, y, rs⟩, h7, h8⟩ := Res.check_ok h6
  obtain ⟨a1, a2⟩ := of_decide_eq_true h4
  obtain ⟨b1, b2, b3, b4, b5⟩ := of_decide_eq_true h5
  obtain ⟨c1, c2⟩ := of_decide_eq_true h8
  have hl := LifeX.puts _ (LifeX.new (c := wideIdx fx) (lo := 0) (K := 1000) (P := 100) (fun _ => 0) (fun _ => (0, 0)) (fun _ => 0)) h1
  exact ⟨d, x, .put 104 (dat 0), o, d', x', L, _, _, hl, allowedPut_ok ha, h3, ⟨a1, Or.inl a2.symm⟩, lastKept_safe hk2, lastKept_safe hk1,
    Prod.ext rfl (Prod.ext rfl b1), b2, b3, b4, b5, e, y, rs, h7, c1, c2⟩

/-- The theorems apply to a table whose index file has wrapped, on storage where erasing does nothing: pages 1 to 4 are found, and the
filtered scan reads 26 of 51 pages. -/
example : DurableX (wideIdx id) 0 1000 100 ∧ WideLife id 1 26 :=
  ⟨wideIdx_durable _ _ (by decide) (by decide) (Or.inl fun _ => rfl), wideCheck_ok (by decide +kernel)⟩

/-- The same on storage where erased bytes read 255: only page 4 is found, and the scan reads 41 pages. -/
example : DurableX (wideIdx fun _ => some fun _ => 255) 0 1000 100 ∧ WideLife (fun _ => some fun _ => 255) 4 41 :=
  ⟨wideIdx_durable _ _ (by decide) (by decide) (Or.inr fun _ => ⟨_, rfl, by decide⟩), wideCheck_ok (by decide +kernel)⟩

end EDB
