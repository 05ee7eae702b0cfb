import Verif.Proofs.SdUse
import Verif.Props.VarFileBytes

/-!
# C52: the files of tables on an SD card
-/

namespace EDB

open Spec (VLog Log)

/-- Read requests for pages of a file on a card are answered as by a device with the pages `F`, wherever the file position is, for pages that can
be read and for the first page that cannot (further behind the end the buffer gets something else: `C52_false_read`). -/
def SdReadsAs (sz : Nat) (f : SdFile) (F : Nat → Option Page) : Prop :=
  ∀ i, sz * i < 2 ^ 32 → (∀ j, j < i → (F j).isSome) → ∀ buf : List Byte, buf.length = sz →
    match F i with
    | some p => (sdRead f buf i sz).2 = (rd p 0 sz, 1) ∧ toPage (rd p 0 sz) = p
    | none => (sdRead f buf i sz).2 = (buf, 0)

/-- A card on which the first `k` storage operations were carried out, with reads in between, answers read requests as the device does after them,
and reports the next operation as carried out if it is a write. -/
def OnCard (sz : Nat) (log : List Ev) : Prop :=
  ∀ k f, SdUse sz (log.take k) f → SdReadsAs sz f (Spec.image id (log.take k)) ∧
    ∀ n p, log[k]? = some (Ev.write n p) → (sdWrite f (rd p 0 sz) n sz fun _ => true).2 = 1

section
variable {c : Cfg}

theorem SdReadsAs.held {f : SdFile} {k : Nat} {log : List Ev} (h0 : 0 < c.pageSize) (hE : c.eraseFx = id)
    (H : PagesHeld c.pageSize f.bytes k (storeOf c.pageSize (Spec.image id log)))
    (hw : ∀ ph p, Ev.write ph p ∈ log → Page.within p c.pageSize) : SdReadsAs c.pageSize f (Spec.image id log) := by
  intro i hi hlt buf hb
  have hk : i ≤ k := by
    by_contra h
    have h1 := H.none k (Nat.le_refl _)
    have h2 := hlt k (by omega)
    unfold storeOf at h1
    cases hf : Spec.image id log k with
    | none => rw [hf] at h2; cases h2
    | some p => rw [hf] at h1; cases h1
  have R := H.sdRead h0 hi hk buf hb
  unfold Spec.PageStore.read storeOf at R
  cases hf : Spec.image id log i with
  | none => rw [hf] at R; exact R
  | some p =>
    rw [hf] at R
    exact ⟨R, toPage_rd (within_image (c := c) (mock := false) hE hw i p (by rw [hE]; exact hf))⟩

/-- C52 for tables (`_partial`: `Durable` configurations with the no-op erase, files below 4 GiB, a card that accepts every write): whatever happened to
the data file of a table, on an SD card it is read as the device of the other theorems. -/
theorem C52_life_partial {lo K P : Nat} (D : Durable c lo K P) (hE : c.eraseFx = id) (h32 : c.pageSize * c.N < 2 ^ 32) {d : Data} {L : Log}
    (h : Life c lo K P d L) : d.dev.file = Spec.image id d.dev.log ∧ OnCard c.pageSize d.dev.log := by
  have h32' : P ≤ 2 ^ 32 := by have := D.bounds.pages; omega
  obtain ⟨J, _⟩ := h.ok D.ok D.bounds h32' D.recs127 D.file32 D.eraser D.spline D.pos
  have I := h.within D.ok D.bounds h32' D.recs127 D.file32 D.eraser D.spline D.pos
  have h0 : 0 < c.pageSize := lt_of_lt_of_le (by omega) (le_trans (hdr_ge c) (hdr_lt D.ok.cap))
  have hg := J.good.noGaps D.ok.B0 D.ok.dvd D.ok.N0 hE h32
  refine ⟨by rw [J.file_eq, hE], fun k f u => ⟨?_, fun n p hk => u.writes hg hk⟩⟩
  have H := (J.good.take k).holds D.ok.B0 D.ok.dvd D.ok.N0 (mock := false) hE h32
  rw [hE, ← u.bytes (hg.take k)] at H
  exact SdReadsAs.held h0 hE H fun ph p he => I.pages ph p (List.mem_of_mem_take he)

/-- C52 for variable data files (`_partial`: as C51_var_partial; a card that accepts every write). -/
theorem C52_var_partial (c : Cfg) (s : Trio) (hB : 0 < c.B) (hd : c.B ∣ c.numVar) (hlt : c.B < c.numVar) (hk : c.keySize ≤ 8)
    (hp : c.vhdr ≤ c.pageSize) (hE : c.eraseFx = id) (h32 : c.pageSize * c.numVar < 2 ^ 32) (h : VarLives c s) :
    s.v.dev.file = Spec.image id s.v.dev.log ∧ OnCard c.pageSize s.v.dev.log := by
  have h0 : 0 < c.pageSize := by unfold Cfg.vhdr at hp; omega
  have hNV : c.numVar < 2 ^ 32 := lt_of_le_of_lt (Nat.le_mul_of_pos_left _ h0) h32
  obtain ⟨h1, h2⟩ := h.ring hB hd hlt hNV hk (fun p => ⟨p, by rw [hE]; rfl, Or.inl rfl⟩)
  have hg : NoGaps c.pageSize s.v.dev.log := h2.noGaps (by omega) h32
  refine ⟨by rw [h1, hE], fun k f u => ⟨?_, fun n p hk => u.writes hg hk⟩⟩
  obtain ⟨n, a, h3⟩ := h2.cut (List.take_prefix k s.v.dev.log)
  have H := h3.holds (sz := c.pageSize) (by omega) h32
  rw [← u.bytes (hg.take k)] at H
  exact SdReadsAs.held h0 hE H fun ph p he => (h.fits hp).2 ph p (List.mem_of_mem_take he)

/-- C52 for tables with variable data (`_partial`: the lives of C70, files below 4 GiB, a card that accepts every write): both files. -/
theorem C52_varlife_partial (c : Cfg) (lo K P : Nat) (hok : c.Ok K) (hv : c.VFile) (hid : c.eraseFx = id) (hB : Bounds c lo K P)
    (h127 : c.maxRec ≤ 127) (hN32 : c.pageSize * c.N < 2 ^ 32) (hP0 : 0 < P) (R n0 Q : Nat) (first : Nat → Nat) (d : Data) (x : Idx) (v : Var)
    (l : VLog) (h : LifeW c lo K P R n0 Q first d x v l) :
    (d.dev.file = Spec.image id d.dev.log ∧ OnCard c.pageSize d.dev.log) ∧
    v.dev.file = Spec.image id v.dev.log ∧ OnCard c.pageSize v.dev.log := by
  have h0 : 0 < c.pageSize := by have := hv.page; omega
  have hN : c.N < 2 ^ 32 := lt_of_le_of_lt (Nat.le_mul_of_pos_left _ h0) hN32
  have hm := hv.mem
  rw [Nat.mul_comm] at hm
  have hV : 0 < c.numVar := by have := hv.B0; have := hv.two; omega
  obtain ⟨lv, low, g, I⟩ := h.inv hok hv hid hB h127 hN hP0
  obtain ⟨F1, F2⟩ := h.fits hok hv
  have hg1 := I.jr.good.noGaps hok.B0 hok.dvd hok.N0 hid hN32
  have hg2 : NoGaps c.pageSize v.dev.log := I.ring.2.noGaps hV hm
  refine ⟨⟨by rw [I.jr.file_eq, hid], fun k f u => ⟨?_, fun n p hk => u.writes hg1 hk⟩⟩, by rw [I.ring.1, hid],
    fun k f u => ⟨?_, fun n p hk => u.writes hg2 hk⟩⟩
  · have H := (I.jr.good.take k).holds hok.B0 hok.dvd hok.N0 (mock := false) hid hN32
    rw [hid, ← u.bytes (hg1.take k)] at H
    exact SdReadsAs.held h0 hid H fun ph p he => F1.2.2 ph p (List.mem_of_mem_take he)
  · obtain ⟨n, a, h3⟩ := I.ring.2.cut (List.take_prefix k v.dev.log)
    have H := h3.holds (sz := c.pageSize) hV hm
    rw [← u.bytes (hg2.take k)] at H
    exact SdReadsAs.held h0 hid H fun ph p he => F2.2 ph p (List.mem_of_mem_take he)

end

/-! ### Examples -/

theorem sdUse_run (sz : Nat) (log : List Ev) : SdUse sz log (sdRun sz log) := by
  induction log using List.reverseRecOn with
  | nil => exact .new
  | append_singleton l e ih =>
    have e0 : sdRun sz (l ++ [e]) = sdEv sz (sdRun sz l) e := by unfold sdRun; rw [List.foldl_append]; rfl
    rw [e0]
    exact ih.op e

/-- For the life of `demo_life`, after 6 of its storage operations, the card shows page 4 in place of page 0, wherever the position was, and reading
page 4 fails. -/
example : ∃ d L, Durable demo 0 1000 100 ∧ demo.eraseFx = id ∧ demo.pageSize * demo.N < 2 ^ 32 ∧ Life demo 0 1000 100 d L ∧
    SdUse 26 (d.dev.log.take 6) (sdRun 26 (d.dev.log.take 6)) ∧
    pageId (toPage (sdRead { sdRun 26 (d.dev.log.take 6) with pos := 40 } (List.replicate 26 7) 0 26).2.1) = 4 ∧
    (sdRead (sdRun 26 (d.dev.log.take 6)) (List.replicate 26 7) 4 26).2 = (List.replicate 26 7, 0) := by
  obtain ⟨d, x', h1, h2⟩ := demo_life
  refine ⟨d, _, demo_durable 100 (by decide) (by decide), rfl, by decide, h1, sdUse_run _ _, ?_⟩
  have : ((runOps demo demo0 noIdx (demoPuts ++ [Spec.Op.flush])).check fun (d, _) =>
      pageId (toPage (sdRead { sdRun 26 (d.dev.log.take 6) with pos := 40 } (List.replicate 26 7) 0 26).2.1) = 4 ∧
      (sdRead (sdRun 26 (d.dev.log.take 6)) (List.replicate 26 7) 4 26).2 = (List.replicate 26 7, 0)) = true := by decide +kernel
  rw [h2] at this
  simpa [Res.check] using this

/-- Five inserts and a flush of records with variable data, the power failure, and the table opened again: both files on a card. -/
example : ∃ R n0 Q first d x v l, LifeW demoW 1 1000 100 R n0 Q first d x v l ∧ demoW.pageSize * demoW.N < 2 ^ 32 ∧
    SdUse demoW.pageSize v.dev.log (sdRun demoW.pageSize v.dev.log) ∧
    (sdRun demoW.pageSize d.dev.log).bytes.length = 3 * demoW.pageSize ∧
    (sdRun demoW.pageSize v.dev.log).bytes.length = 4 * demoW.pageSize ∧
    pageId (toPage (sdRead (sdRun demoW.pageSize v.dev.log) (List.replicate demoW.pageSize 7) 0 demoW.pageSize).2.1) = 4 := by
  obtain ⟨R, n0, Q, first, d, x, v, l, h1, -, -, -, -, -, h5⟩ := demoWAgain_ok (W := fun d _ v => decide (
    (sdRun demoW.pageSize d.dev.log).bytes.length = 3 * demoW.pageSize ∧
    (sdRun demoW.pageSize v.dev.log).bytes.length = 4 * demoW.pageSize ∧
    pageId (toPage (sdRead (sdRun demoW.pageSize v.dev.log) (List.replicate demoW.pageSize 7) 0 demoW.pageSize).2.1) = 4)) (by decide +kernel)
  exact ⟨R, n0, Q, first, d, x, v, l, h1, by decide, sdUse_run _ _, of_decide_eq_true h5⟩

/-- Variable data alone: nine inserts with flushes, the file in its third round. -/
example : ∃ s, VarLives demoW s ∧ 0 < demoW.B ∧ demoW.B ∣ demoW.numVar ∧ demoW.B < demoW.numVar ∧ demoW.keySize ≤ 8 ∧ demoW.vhdr ≤ demoW.pageSize ∧
    demoW.eraseFx = id ∧ demoW.pageSize * demoW.numVar < 2 ^ 32 ∧
    (List.range 4).map (fun i => pageId (toPage (sdRead (sdRun demoW.pageSize s.v.dev.log) (List.replicate demoW.pageSize 7) i demoW.pageSize).2.1)) =
      [8, 5, 6, 7] := by
  have h1 : (runOpsV demoW (trio0 demoW).d (trio0 demoW).x (trio0 demoW).v (trioOps false)).check (fun (_, _, v) =>
      decide ((List.range 4).map (fun i => pageId (toPage (sdRead (sdRun demoW.pageSize v.dev.log) (List.replicate demoW.pageSize 7) i
        demoW.pageSize).2.1)) = [8, 5, 6, 7])) = true := by
    decide +kernel
  obtain ⟨⟨d, x, v⟩, e1, c1⟩ := Res.check_ok h1
  have L0 : VarLives demoW (trio0 demoW) := .fresh _ _ _ _ _
  exact ⟨_, L0.ofCalls (Calls.ofOpsV _ _ _ _ _ _ _ _ (Calls.none _) e1), by decide, by decide, by decide, by decide, by decide, rfl, by decide,
    of_decide_eq_true c1⟩

end EDB
