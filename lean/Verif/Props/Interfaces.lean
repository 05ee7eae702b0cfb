import Verif.Proofs.SdFile
import Verif.Props.Recovery

/-!
# C51, C52, C53: the file interfaces

The interfaces supplied with the library (desktop, SD card, dataflash) against the page store the library is written for
(`Spec.PageStore`).
-/

namespace EDB

open Spec (Log Op Out PageStore pagesIn)

/-! ### C51: desktop -/

/-- C51, reading (`_partial`: whole pages, offsets below 4 GiB; see `C51_false_offset`, `C51_false_torn`): `FILE_READ` answers from the pages the
file consists of. -/
theorem C51_read_partial {sz : Nat} {f : List Byte} (h0 : 0 < sz) (hd : sz ∣ f.length) {n : Nat} (hn : sz * n < 2 ^ 32)
    (buf : List Byte) (hb : buf.length = sz) : fileRead f buf n sz = (pagesIn sz f).read n buf :=
  (holds_pagesIn h0 hd).read h0 hn buf hb

/-- C51, writing (`_partial`: whole pages, offsets below 4 GiB, no page is skipped; see `C51_false_offset`, `C51_false_gap`):
`FILE_WRITE` changes the page written and no other. -/
theorem C51_write_partial {sz : Nat} {f bs : List Byte} (h0 : 0 < sz) (hd : sz ∣ f.length) {n : Nat} (hn : sz * n < 2 ^ 32)
    (hk : sz * n ≤ f.length) (hb : bs.length = sz) :
    sz ∣ (fileWrite f bs n sz).length ∧ pagesIn sz (fileWrite f bs n sz) = (pagesIn sz f).write n bs := by
  have H := holds_pagesIn h0 hd
  have := H.write hn (by rw [Nat.le_div_iff_mul_le h0, Nat.mul_comm]; exact hk) bs hb
  exact ⟨⟨_, this.len⟩, this.pagesIn h0⟩

/-- C51, writing behind the end (`_partial`: whole pages, offsets below 4 GiB): the pages skipped become readable and contain zeros. -/
theorem C51_gap_partial {sz : Nat} {f bs : List Byte} (h0 : 0 < sz) (hd : sz ∣ f.length) {n : Nat} (hn : sz * n < 2 ^ 32)
    (hk : f.length ≤ sz * n) (hb : bs.length = sz) :
    sz ∣ (fileWrite f bs n sz).length ∧
      pagesIn sz (fileWrite f bs n sz) = (pagesIn sz f).writeGap (f.length / sz) n bs (List.replicate sz 0) := by
  refine pagesIn_gap h0 hd hk hb ?_
  unfold fileWrite byteOff
  rw [Nat.mod_eq_of_lt hn, pwrite_end _ _ _ hk]

/-- A file of one page. -/
example : fileWrite [1, 2, 3, 4] [5, 6, 7, 8] 1 4 = [1, 2, 3, 4, 5, 6, 7, 8] ∧
    fileRead (fileWrite [1, 2, 3, 4] [5, 6, 7, 8] 1 4) [0, 0, 0, 0] 0 4 = ([1, 2, 3, 4], 1) ∧
    fileRead (fileWrite [1, 2, 3, 4] [5, 6, 7, 8] 1 4) [0, 0, 0, 0] 2 4 = ([0, 0, 0, 0], 0) ∧
    fileWrite [1, 2, 3, 4] [5, 6, 7, 8] 3 4 = [1, 2, 3, 4, 0, 0, 0, 0, 0, 0, 0, 0, 5, 6, 7, 8] := by decide +kernel

section
variable {c : Cfg} {lo K P : Nat}

/-- C51 for tables (`_partial`: `Durable` configurations, files below 4 GiB): whatever happened to a data file (`Life`), carry out the first `k`
of its storage operations on a file of the operating system, with either of the two desktop interfaces.  Then every read request for a page is answered
exactly as by the device the other theorems are about: the same pages can be read, a failing read leaves the buffer alone, and the bytes read
determine the whole page. -/
theorem C51_life_partial (D : Durable c lo K P) {mock : Bool} (hE : c.eraseFx = deskErase c.pageSize mock)
    (h32 : c.pageSize * c.N < 2 ^ 32) {d : Data} {L : Log} (h : Life c lo K P d L) (k : Nat) :
    ∀ i, c.pageSize * i < 2 ^ 32 → ∀ buf : List Byte, buf.length = c.pageSize →
      match (cutDev c d.dev k).file i with
      | some p => fileRead (desk c.pageSize mock (d.dev.log.take k)) buf i c.pageSize = (rd p 0 c.pageSize, 1) ∧
          toPage (rd p 0 c.pageSize) = p
      | none => fileRead (desk c.pageSize mock (d.dev.log.take k)) buf i c.pageSize = (buf, 0) := by
  intro i hi buf hb
  have h32' : P ≤ 2 ^ 32 := by have := D.bounds.pages; omega
  obtain ⟨J, _⟩ := h.ok D.ok D.bounds h32' D.recs127 D.file32 D.eraser D.spline D.pos
  have I := h.within D.ok D.bounds h32' D.recs127 D.file32 D.eraser D.spline D.pos
  have h0 : 0 < c.pageSize := lt_of_lt_of_le (by omega) (le_trans (hdr_ge c) (hdr_lt D.ok.cap))
  have H := (J.good.take k).holds D.ok.B0 D.ok.dvd D.ok.N0 hE h32
  have R := H.read h0 hi buf hb
  show match Spec.image c.eraseFx (d.dev.log.take k) i with
      | some p => _
      | none => _
  unfold PageStore.read storeOf at R
  cases hf : Spec.image c.eraseFx (d.dev.log.take k) i with
  | none => rw [hf] at R; exact R
  | some p =>
    rw [hf] at R
    exact ⟨R, toPage_rd (within_image hE (fun ph q hq => I.pages ph q (List.mem_of_mem_take hq)) i p hf)⟩

end

/-- The desktop interface with the no-op erase is one of the devices of the other theorems. -/
example : Durable demo 0 1000 100 ∧ demo.eraseFx = deskErase demo.pageSize false ∧ demo.pageSize * demo.N < 2 ^ 32 :=
  ⟨demo_durable 100 (by decide) (by decide), rfl, by decide⟩

/-- For the life of `demo_life`, after 6 of its storage operations, the bytes show page 4 in place of page 0 and nothing at page 5. -/
example : ∃ d L, Life demo 0 1000 100 d L ∧
    (desk 26 false (d.dev.log.take 6)).length = 104 ∧
    (fileRead (desk 26 false (d.dev.log.take 6)) (List.replicate 26 7) 0 26).2 = 1 ∧
    pageId (toPage (fileRead (desk 26 false (d.dev.log.take 6)) (List.replicate 26 7) 0 26).1) = 4 ∧
    fileRead (desk 26 false (d.dev.log.take 6)) (List.replicate 26 7) 4 26 = (List.replicate 26 7, 0) := by
  obtain ⟨d, x', h1, h2⟩ := demo_life
  refine ⟨d, _, h1, ?_⟩
  have : ((runOps demo demo0 noIdx (demoPuts ++ [Op.flush])).check fun (d, _) =>
      (desk 26 false (d.dev.log.take 6)).length = 104 ∧
      (fileRead (desk 26 false (d.dev.log.take 6)) (List.replicate 26 7) 0 26).2 = 1 ∧
      pageId (toPage (fileRead (desk 26 false (d.dev.log.take 6)) (List.replicate 26 7) 0 26).1) = 4 ∧
      fileRead (desk 26 false (d.dev.log.take 6)) (List.replicate 26 7) 4 26 = (List.replicate 26 7, 0)) = true := by decide +kernel
  rw [h2] at this
  simpa [Res.check] using this

/-- So is the one with the mock erase, for tables of fewer than 0x01010101 pages. -/
example : Eraser { demo with eraseFx := deskErase 26 true } 16843009 := fun _ => ⟨onesPage 26, rfl, Or.inr (by decide +kernel)⟩

/-! ### C52: SD card -/

/-- C52, reading (`_partial`: whole pages, offsets below 4 GiB, at most one page behind the end; see `C52_false_read`): `FILE_READ` answers from
the pages the file consists of, wherever the position was. -/
theorem C52_read_partial {sz : Nat} {f : SdFile} (h0 : 0 < sz) (hd : sz ∣ f.bytes.length) {n : Nat} (hn : sz * n < 2 ^ 32)
    (hk : sz * n ≤ f.bytes.length) (buf : List Byte) (hb : buf.length = sz) :
    (sdRead f buf n sz).2 = (pagesIn sz f.bytes).read n buf ∧ (sdRead f buf n sz).1.bytes = f.bytes := by
  have H := C51_read_partial h0 hd hn buf hb
  rw [← H]
  unfold sdRead fileRead SdFile.seek SdFile.take byteOff
  rw [Nat.mod_eq_of_lt hn]
  simp only [if_pos hk]
  refine ⟨?_, trivial⟩
  congr 1
  have hl : (pread f.bytes (sz * n) sz).length ≤ sz := by rw [pread_length]; omega
  split_ifs with h
  · rw [h.1, Nat.div_self h0]
  · exact Nat.div_eq_of_lt (by omega)

/-- C52, writing (`_partial`: whole pages, offsets below 4 GiB, no page is skipped, the card accepts the write; see `C52_false_write`): `FILE_WRITE`
reports success and changes the page written and no other. -/
theorem C52_write_partial {sz : Nat} {f : SdFile} {bs : List Byte} (h0 : 0 < sz) (hd : sz ∣ f.bytes.length) {n : Nat}
    (hn : sz * n < 2 ^ 32) (hk : sz * n ≤ f.bytes.length) (hb : bs.length = sz) :
    (sdWrite f bs n sz fun _ => true).2 = 1 ∧ tookPlace (sdWrite f bs n sz fun _ => true).2 = true ∧
      sz ∣ (sdWrite f bs n sz fun _ => true).1.bytes.length ∧
      pagesIn sz (sdWrite f bs n sz fun _ => true).1.bytes = (pagesIn sz f.bytes).write n bs := by
  have e : sdWrite f bs n sz (fun _ => true) = (⟨fileWrite f.bytes bs n sz, sz * n + bs.length⟩, 1) := by
    unfold sdWrite SdFile.seek fileWrite byteOff
    rw [Nat.mod_eq_of_lt hn]
    simp only [if_neg (Nat.not_lt.mpr hk), if_pos hk, SdFile.put, if_true]
  rw [e]
  exact ⟨rfl, rfl, C51_write_partial h0 hd hn hk hb⟩

/-- C52, writing behind the end (`_partial` as `C52_write_partial`, page sizes divisible by 4): the pages skipped become readable and
contain bytes 255. -/
theorem C52_gap_partial {sz : Nat} {f : SdFile} {bs : List Byte} (h0 : 0 < sz) (h4 : 4 ∣ sz) (hd : sz ∣ f.bytes.length) {n : Nat}
    (hn : sz * n < 2 ^ 32) (hk : f.bytes.length < sz * n) (hb : bs.length = sz) :
    (sdWrite f bs n sz fun _ => true).2 = 1 ∧ tookPlace (sdWrite f bs n sz fun _ => true).2 = true ∧
      sz ∣ (sdWrite f bs n sz fun _ => true).1.bytes.length ∧
      pagesIn sz (sdWrite f bs n sz fun _ => true).1.bytes =
        (pagesIn sz f.bytes).writeGap (f.bytes.length / sz) n bs (List.replicate sz 255) := by
  obtain ⟨m, hm⟩ : 4 ∣ sz * n - f.bytes.length := Nat.dvd_sub (Dvd.dvd.mul_right h4 n) (h4.trans hd)
  have hs : sz * n = f.bytes.length + 4 * m := by omega
  have e : ∃ p, sdWrite f bs n sz (fun _ => true) = (⟨f.bytes ++ List.replicate (sz * n - f.bytes.length) 255 ++ bs, p⟩, 1) := by
    obtain ⟨j, hj⟩ := sdFill_ok m (sz * n) (f.seek f.bytes.length).1 0 (by omega) (by simp [SdFile.seek])
    have e1 : (f.seek f.bytes.length).1.bytes = f.bytes := by simp [SdFile.seek]
    rw [e1, ← hs] at hj
    refine ⟨sz * n + bs.length, ?_⟩
    unfold sdWrite byteOff
    rw [Nat.mod_eq_of_lt hn]
    have hl : (f.bytes ++ List.replicate (4 * m) (255 : Byte)).length = sz * n := by simp; omega
    simp only [if_pos hk, hj]
    simp only [SdFile.seek, hl, Nat.le_refl, if_true, SdFile.put]
    rw [show sz * n - f.bytes.length = 4 * m by omega]
    conv_lhs => rw [← hl]
    rw [pwrite_append, hl]
  obtain ⟨p, e⟩ := e
  rw [e]
  exact ⟨rfl, rfl, pagesIn_gap h0 hd hk.le hb rfl⟩

/-- The hypotheses of the three theorems are met. -/
example : (sdWrite ⟨[1, 2, 3, 4], 2⟩ [5, 6, 7, 8] 1 4 fun _ => true).1.bytes = [1, 2, 3, 4, 5, 6, 7, 8] ∧
    (sdRead ⟨[1, 2, 3, 4, 5, 6, 7, 8], 3⟩ [0, 0, 0, 0] 1 4).2 = ([5, 6, 7, 8], 1) ∧
    (sdRead ⟨[1, 2, 3, 4, 5, 6, 7, 8], 3⟩ [0, 0, 0, 0] 2 4).2 = ([0, 0, 0, 0], 0) ∧
    (sdWrite ⟨[1, 2, 3, 4], 2⟩ [5, 6, 7, 8] 2 4 fun _ => true).1.bytes = [1, 2, 3, 4, 255, 255, 255, 255, 5, 6, 7, 8] := by
  decide +kernel

/-! ### C53: dataflash -/

/-- The pages of a file on the chip. -/
def DfFile.store (f : DfFile) (chip : Chip) : PageStore := fun n => if n < f.numPages then some (chip (f.startPage + n)) else none

/-- C53, the accesses of one file (`_partial`: opening a file anew does not clear it, `C53_false_reset`). -/
theorem C53_store_partial {f : DfFile} {chip : Chip} (h : f.startPage + f.numPages ≤ 2 ^ 32) (n : Nat) (bs buf : List Byte) :
    dfRead f chip buf n = (f.store chip).read n buf ∧
    (dfWrite f chip bs n).2 = (if n < f.numPages then 1 else 0) ∧
    f.store (dfWrite f chip bs n).1 = if n < f.numPages then (f.store chip).write n bs else f.store chip := by
  unfold dfRead dfWrite DfFile.phys DfFile.store PageStore.read
  by_cases hn : n < f.numPages
  · have e : (f.startPage + n) % 2 ^ 32 = f.startPage + n := Nat.mod_eq_of_lt (by omega)
    simp only [if_neg (show ¬ n ≥ f.numPages by omega), if_pos hn, e]
    refine ⟨trivial, trivial, ?_⟩
    funext m
    unfold PageStore.write
    by_cases hm : m = n
    · subst hm; simp [hn]
    · have : f.startPage + m ≠ f.startPage + n := by omega
      simp [hm]
  · simp only [if_pos (show n ≥ f.numPages by omega), if_neg hn, and_self]

/-- C53, opening a file in either mode reports success and keeps every page of every file. -/
theorem C53_open (f : DfFile) (chip : Chip) : (dfOpen chip).2 = 1 ∧ f.store (dfOpen chip).1 = f.store chip := ⟨rfl, rfl⟩

/-- C53, files in separate parts of the chip do not disturb each other: whatever is written to one, at any page number, the other's
pages stay as they are. -/
theorem C53_separate {f g : DfFile} {chip : Chip} (hf : f.startPage + f.numPages ≤ 2 ^ 32) (hg : g.startPage + g.numPages ≤ 2 ^ 32)
    (hd : f.startPage + f.numPages ≤ g.startPage ∨ g.startPage + g.numPages ≤ f.startPage) (n : Nat) (bs : List Byte) :
    g.store (dfWrite f chip bs n).1 = g.store chip := by
  unfold dfWrite DfFile.phys DfFile.store
  by_cases hn : n < f.numPages
  · have e : (f.startPage + n) % 2 ^ 32 = f.startPage + n := Nat.mod_eq_of_lt (by omega)
    simp only [if_neg (show ¬ n ≥ f.numPages by omega), e]
    funext m
    by_cases hm : m < g.numPages
    · simp [hm, show g.startPage + m ≠ f.startPage + n by omega]
    · simp [hm]
  · simp only [if_pos (show n ≥ f.numPages by omega)]

example : ∃ f g : DfFile, f.startPage + f.numPages ≤ 2 ^ 32 ∧ g.startPage + g.numPages ≤ 2 ^ 32 ∧
    f.startPage + f.numPages ≤ g.startPage ∧ 0 < f.numPages ∧ 0 < g.numPages := ⟨⟨0, 20⟩, ⟨21, 9⟩, by decide⟩

end EDB
