import Verif.Proofs.Table
import Verif.Model.Index
import Verif.Spec.Index

/-! Helper lemmas: the bitmap index. -/

namespace EDB

open Spec (Log Range Op Out)

/-! ### Bitmaps -/

theorem overlap_iff {a b : List Byte} (h : a.length = b.length) : bitmapOverlap a b = true ↔ Spec.Meets a b := by
  unfold bitmapOverlap Spec.Meets
  rw [List.any_eq_true]
  constructor
  · rintro ⟨xy, hm, hx⟩
    obtain ⟨i, hi, rfl⟩ := List.mem_iff_getElem.mp hm
    rw [List.length_zip] at hi
    refine ⟨i, ?_⟩
    rw [List.getElem_zip] at hx
    simp only [List.getD_eq_getElem?_getD]
    rw [List.getElem?_eq_getElem (by omega), List.getElem?_eq_getElem (by omega)]
    simpa using hx
  · rintro ⟨i, hi⟩
    have h1 : i < a.length := by
      by_contra hc
      apply hi
      rw [List.getD_eq_getElem?_getD, List.getElem?_eq_none (by omega)]
      simp
    refine ⟨(a[i], b[i]), ?_, ?_⟩
    · rw [List.mem_iff_getElem]
      exact ⟨i, by rw [List.length_zip]; omega, by rw [List.getElem_zip]⟩
    · simp only [List.getD_eq_getElem?_getD] at hi
      rw [List.getElem?_eq_getElem (by omega), List.getElem?_eq_getElem (by omega)] at hi
      simpa using hi

/-- Meeting does not need equal lengths. -/
theorem overlap_of {a b : List Byte} (h : Spec.Meets a b) : bitmapOverlap a b = true := by
  obtain ⟨i, hi⟩ := h
  have h1 : i < a.length := by
    by_contra hc
    apply hi
    rw [List.getD_eq_getElem?_getD, List.getElem?_eq_none (by omega)]
    simp
  have h2 : i < b.length := by
    by_contra hc
    apply hi
    rw [List.getD_eq_getElem?_getD (l := b), List.getElem?_eq_none (by omega)]
    simp
  unfold bitmapOverlap
  rw [List.any_eq_true]
  refine ⟨(a[i], b[i]), ?_, ?_⟩
  · rw [List.mem_iff_getElem]
    exact ⟨i, by rw [List.length_zip]; omega, by rw [List.getElem_zip]⟩
  · simp only [List.getD_eq_getElem?_getD] at hi
    rw [List.getElem?_eq_getElem h1, List.getElem?_eq_getElem h2] at hi
    simpa using hi

/-- The bitmap is that of the records of the page: every query that one of them satisfies meets it, and it is made of the
records and the initial bitmap of a page and nothing else. -/
structure Covers (c : Cfg) (bm : List Byte) (rs : List Rec) : Prop where
  meets : ∀ r ∈ rs, ∀ mn mx, Spec.within c.cmpData mn mx r.2 = true → Spec.Meets (c.buildBm mn mx) bm
  exact : bm = rs.foldl (fun b r => c.updBm r.2 b) (hdrBm c (initPage c))

theorem Covers.nil (c : Cfg) : Covers c (hdrBm c (initPage c)) [] := ⟨fun _ h => (List.not_mem_nil h).elim, rfl⟩

/-- Conditions on a configuration with a bitmap index. -/
structure Cfg.IdxOk (c : Cfg) : Prop where
  sound : Spec.SoundBitmap c.bitmapSize c.dataSize c.cmpData c.updBm c.buildBm
  bmap : c.useBmap = true
  index : c.useIndex = true
  /-- min/max fields do not overlap the bitmap -/
  maxMin : c.useMaxMin = true → c.bitmapSize ≤ 8
  bm0 : 0 < c.bitmapSize
  cap : 0 < c.maxIdx
  page : c.pageSize < 65536
  dvd : c.B ∣ c.numIdx
  two : 2 * c.B ≤ c.numIdx

/-- The bitmap in the header after appending a record. -/
theorem hdrBm_append {c : Cfg} (hbm : c.useBmap = true) (hix : c.useIndex = true)
    (hmx : c.useMaxMin = true → c.bitmapSize ≤ 8)
    (hln : ∀ v b, b.length = c.bitmapSize → (c.updBm v b).length = c.bitmapSize) (p : Page) (key : Nat) (data : List Byte)
    (loc : Nat) (hd : data.length = c.dataSize) : hdrBm c (appendRec c p key data loc) = c.updBm data (hdrBm c p) := by
  have hh : 6 + c.bitmapSize ≤ c.hdr := by unfold Cfg.hdr; rw [if_pos hix]; omega
  have hk : (leBytes c.keySize key).length = c.keySize := leBytes_length _ _
  have hl : (leBytes 4 loc).length = 4 := leBytes_length _ _
  have hs := slotOff_ge c (pageCount p)
  have m : minOff = 14 := rfl
  have e0 : ∀ q, hdrBm c (incCount q) = hdrBm c q := by
    intro q; unfold hdrBm incCount; exact rd_wr_disj _ _ _ _ _ (by rw [leBytes_length]; omega)
  have e1 : ∀ q o bs, 14 ≤ o → c.useMaxMin = true → hdrBm c (wr q o bs) = hdrBm c q := by
    intro q o bs ho hm
    have := hmx hm
    exact rd_wr_disj _ _ _ _ _ (by omega)
  have e2 : ∀ q o bs, c.hdr ≤ o → hdrBm c (wr q o bs) = hdrBm c q := by
    intro q o bs ho
    exact rd_wr_disj _ _ _ _ _ (by omega)
  have e3 : ∀ q n, hdrBm c (if c.useMaxMin = true then updMinMax c q n key data else q) = hdrBm c q := by
    intro q n
    split_ifs with hm
    · unfold updMinMax
      simp only
      split_ifs <;> repeat rw [e1 _ _ _ (by omega) hm]
    · rfl
  unfold appendRec
  simp only [hbm, if_true]
  unfold updHdrBm
  rw [show ∀ q : Page, rd q 6 c.bitmapSize = hdrBm c q from fun _ => rfl, e3, e0]
  have e4 : hdrBm c (if c.useVdata = true then
        wr (wr (wr p (slotOff c (pageCount p)) (leBytes c.keySize key)) (slotOff c (pageCount p) + c.keySize) data)
          (slotOff c (pageCount p) + c.keySize + c.dataSize) (leBytes 4 loc)
      else wr (wr p (slotOff c (pageCount p)) (leBytes c.keySize key)) (slotOff c (pageCount p) + c.keySize) data) =
      hdrBm c p := by
    split_ifs
    · rw [e2 _ _ _ (by omega), e2 _ _ _ (by omega), e2 _ _ _ (by omega)]
    · rw [e2 _ _ _ (by omega), e2 _ _ _ (by omega)]
  rw [e4]
  unfold hdrBm
  exact rd_wr_same _ _ _ (hln _ _ (rd_length _ _ _))

theorem hdrBm_length (c : Cfg) (p : Page) : (hdrBm c p).length = c.bitmapSize := rd_length _ _ _

theorem Covers.append {c : Cfg} (hx : c.IdxOk) {p : Page} {rs : List Rec} (h : Covers c (hdrBm c p) rs) (key : Nat)
    {data : List Byte} (loc : Nat) (hd : data.length = c.dataSize) :
    Covers c (hdrBm c (appendRec c p key data loc)) (rs ++ [(key, data)]) := by
  rw [hdrBm_append hx.bmap hx.index hx.maxMin hx.sound.len p key data loc hd]
  refine ⟨?_, by rw [List.foldl_append, ← h.exact]; rfl⟩
  intro r hr mn mx hw
  rcases List.mem_append.mp hr with hr | hr
  · exact hx.sound.keep _ _ _ _ hd (hdrBm_length c p) (h.meets r hr mn mx hw)
  · rw [List.mem_singleton.mp hr] at hw
    exact hx.sound.hit _ _ _ _ hd (hdrBm_length c p) hw

/-! ### The index file -/

/-- Bitmap number `i` of an index page. -/
def idxEntry (c : Cfg) (p : Page) (i : Nat) : List Byte := rd p (16 + c.bitmapSize * i) c.bitmapSize

/-- The index describes pages of the log: the index pages on file the first ones, the index write buffer the newest ones.  After
reopening there may be pages in between that are not described at all. -/
structure IdxInv (c : Cfg) (x : Idx) (L : Log) : Prop where
  cnt : pageCount x.wbuf ≤ c.maxIdx
  pages : x.next * c.maxIdx + pageCount x.wbuf ≤ L.pages.length
  buf : ∀ i, i < pageCount x.wbuf → Covers c (idxEntry c x.wbuf i) (L.pages.getD (L.pages.length - pageCount x.wbuf + i) [])
  stored : ∀ q, x.min ≤ q → q < x.next → ∃ p, x.dev.file (q % c.numIdx) = some p ∧
    ∀ i, i < c.maxIdx → Covers c (idxEntry c p i) (L.pages.getD (q * c.maxIdx + i) [])
  minle : x.min ≤ x.next
  sum : x.next + x.avail = x.min + c.numIdx
  cacheN : ∀ ph, x.buffered = some ph → ph < c.numIdx ∧ ph < x.next
  cache : ∀ ph, x.buffered = some ph → ∀ q, x.min ≤ q → q < x.next → q % c.numIdx = ph → x.dev.file ph = some x.rbuf

/-- Every page of the log is described. -/
def Aligned (c : Cfg) (x : Idx) (n : Nat) : Prop := x.next * c.maxIdx + pageCount x.wbuf = n

section
variable {c : Cfg} {x : Idx} {L : Log}

theorem Cfg.IdxOk.num0 (hx : c.IdxOk) (hB : 0 < c.B) : 0 < c.numIdx := by have := hx.two; omega

theorem pageCount_initPage (c : Cfg) : pageCount (initPage c) = 0 := by
  rw [← recs_length c, recs_init]; rfl

theorem IdxInv.fresh (c : Cfg) (rb : Page) : IdxInv c (Idx.fresh c rb) Log.empty := by
  have hc : pageCount (Idx.fresh c rb).wbuf = 0 := by
    rw [← pageCount_initPage c]
    unfold Idx.fresh pageCount
    simp only
    rw [rd_wr_disj _ _ _ _ _ (by omega)]
  refine ⟨by omega, ?_, ?_, ?_, le_refl _, ?_, ?_, ?_⟩
  · rw [hc]; simp [Idx.fresh, Log.empty]
  · intro i hi; omega
  · intro q _ h; simp [Idx.fresh] at h
  · simp [Idx.fresh]
  · intro ph h; simp [Idx.fresh] at h
  · intro ph h; simp [Idx.fresh] at h

/-- The index does not care about the write buffer of the data file. -/
theorem IdxInv.congr {L' : Log} (I : IdxInv c x L) (h : L'.pages = L.pages) : IdxInv c x L' := by
  obtain ⟨a1, a2, a3, a4, a5, a6, a7, a8⟩ := I
  rw [← h] at a2 a3 a4
  exact ⟨a1, a2, a3, a4, a5, a6, a7, a8⟩

theorem maxIdx_room (hx : c.IdxOk) {n : Nat} (h : n < c.maxIdx) : 16 + c.bitmapSize * (n + 1) ≤ c.pageSize := by
  have h1 : c.maxIdx * c.bitmapSize ≤ c.pageSize - 16 := Nat.div_mul_le_self _ _
  have h2 : (n + 1) * c.bitmapSize ≤ c.maxIdx * c.bitmapSize := Nat.mul_le_mul_right _ h
  have h3 := hx.bm0
  have h4 : 1 * c.bitmapSize ≤ (n + 1) * c.bitmapSize := Nat.mul_le_mul_right _ (by omega)
  rw [Nat.mul_comm]
  omega

theorem maxIdx_small (hx : c.IdxOk) : c.maxIdx < 65535 := by
  have h1 : c.maxIdx ≤ c.pageSize - 16 := Nat.div_le_self _ _
  have h2 := hx.page
  have h3 := hx.cap
  omega

/-- The index write buffer after appending a bitmap. -/
def idxNew (c : Cfg) (x : Idx) (bm : List Byte) : Idx :=
  { x with wbuf := wr (incCount x.wbuf) (16 + c.bitmapSize * pageCount x.wbuf) bm }

theorem idxNew_count (h : pageCount x.wbuf < 65535) (bm : List Byte) :
    pageCount (idxNew c x bm).wbuf = pageCount x.wbuf + 1 := by
  unfold idxNew
  simp only
  rw [show ∀ p : Page, pageCount p = leNat (rd p 4 2) from fun _ => rfl, rd_wr_disj _ _ _ _ _ (by omega)]
  unfold incCount
  rw [rd_wr_same _ _ _ (leBytes_length _ _), leNat_leBytes, Nat.mod_eq_of_lt (by omega)]

theorem IdxInv.append (hx : c.IdxOk) (I : IdxInv c x L) (hn : pageCount x.wbuf < c.maxIdx) {bm : List Byte}
    (hl : bm.length = c.bitmapSize) {pg : List Rec} (hc : Covers c bm pg) (b : List Rec) :
    idxAppend c x bm = .ok (idxNew c x bm) ∧ IdxInv c (idxNew c x bm) ⟨L.pages ++ [pg], b⟩ ∧
      (Aligned c x L.pages.length → Aligned c (idxNew c x bm) (L.pages.length + 1)) := by
  have hs := maxIdx_small hx
  have hr := maxIdx_room hx hn
  have hcnt := idxNew_count (c := c) (x := x) (by omega) bm
  have hp := I.pages
  refine ⟨?_, ?_, ?_⟩
  · unfold idxAppend
    simp only
    rw [if_neg (by omega)]
    rfl
  rotate_left
  · intro h
    unfold Aligned at h ⊢
    rw [hcnt, ← h]
    rfl
  · have hget : ∀ l, l < L.pages.length → (L.pages ++ [pg]).getD l [] = L.pages.getD l [] := by
      intro l hl
      simp only [List.getD_eq_getElem?_getD]
      rw [List.getElem?_append_left hl]
    refine ⟨by omega, ?_, ?_, ?_, I.minle, I.sum, I.cacheN, I.cache⟩
    · rw [hcnt, List.length_append, List.length_singleton]
      show x.next * c.maxIdx + _ ≤ _
      omega
    · intro i hi
      rw [hcnt] at hi ⊢
      have hle : (L.pages ++ [pg]).length - (pageCount x.wbuf + 1) + i = L.pages.length - pageCount x.wbuf + i := by
        rw [List.length_append, List.length_singleton]; omega
      show Covers c (idxEntry c (idxNew c x bm).wbuf i) ((L.pages ++ [pg]).getD ((L.pages ++ [pg]).length - (pageCount x.wbuf + 1) + i) [])
      rw [hle]
      have hoff : ∀ j, j < pageCount x.wbuf → 16 + c.bitmapSize * j + c.bitmapSize ≤ 16 + c.bitmapSize * pageCount x.wbuf := by
        intro j hj
        have : c.bitmapSize * (j + 1) ≤ c.bitmapSize * pageCount x.wbuf := Nat.mul_le_mul_left _ hj
        rw [Nat.mul_add] at this; omega
      by_cases h : i < pageCount x.wbuf
      · rw [hget _ (by omega)]
        have e : idxEntry c (idxNew c x bm).wbuf i = idxEntry c x.wbuf i := by
          unfold idxEntry idxNew incCount
          simp only
          rw [rd_wr_disj _ _ _ _ _ (Or.inl (hoff i h)), rd_wr_disj _ _ _ _ _ (by rw [leBytes_length]; omega)]
        rw [e]
        exact I.buf i h
      · have h' : i = pageCount x.wbuf := by omega
        subst h'
        have e : idxEntry c (idxNew c x bm).wbuf (pageCount x.wbuf) = bm := by
          unfold idxEntry idxNew
          simp only
          exact rd_wr_same _ _ _ hl
        rw [e, show L.pages.length - pageCount x.wbuf + pageCount x.wbuf = L.pages.length by omega, List.getD_eq_getElem?_getD, List.getElem?_append_right (le_refl _)]
        simpa using hc
    · intro q h1 h2
      obtain ⟨p, p1, p2⟩ := I.stored q h1 h2
      refine ⟨p, p1, ?_⟩
      intro i hi
      show Covers c (idxEntry c p i) ((L.pages ++ [pg]).getD (q * c.maxIdx + i) [])
      have h2' : q < x.next := h2
      have : (q + 1) * c.maxIdx ≤ x.next * c.maxIdx := Nat.mul_le_mul_right _ h2'
      rw [Nat.add_mul] at this
      rw [hget _ (by omega)]
      exact p2 i hi

/-- The page image `writeIndexPage` stores. -/
def idxPage (x : Idx) : Page := wr x.wbuf 0 (leBytes 4 x.next)

/-- The first retained index page after `writeIndexPage`. -/
def idxMin (c : Cfg) (x : Idx) : Nat := if x.avail = 0 then x.min + c.B else x.min

/-- The index after `writeIndexPage`. -/
def idxOut (c : Cfg) (x : Idx) : Idx :=
  { x with
    dev :=
      { file := fun i => if i = x.next % c.numIdx then some (idxPage x)
          else if x.avail = 0 ∧ x.next % c.numIdx ≤ i ∧ i < x.next % c.numIdx + c.B then c.eraseFx (x.dev.file i)
          else x.dev.file i
        log := x.dev.log ++ (if x.avail = 0 then [.erase (x.next % c.numIdx) (x.next % c.numIdx + c.B)] else []) ++
          [.write (x.next % c.numIdx) (idxPage x)]
        reqs := x.dev.reqs + (if x.avail = 0 then 2 else 1) }
    wbuf := idxPage x, next := x.next + 1, min := idxMin c x
    avail := (if x.avail = 0 then c.B else x.avail) - 1 }

theorem writeIdx_eq (hio : ∀ n, c.ioOk n = true) (x : Idx) : writeIdx c x = (idxOut c x, some x.next) := by
  unfold writeIdx
  simp only
  by_cases ha : x.avail = 0
  · rw [if_pos ha]
    simp only [Dev.erase, hio, if_true, Dev.write]
    simp [idxOut, idxPage, idxMin, ha]
  · rw [if_neg ha]
    simp only [Dev.write, hio, if_true]
    simp [idxOut, idxPage, idxMin, ha]

theorem IdxInv.write (hx : c.IdxOk) (hB : 0 < c.B) (I : IdxInv c x L) (hn : pageCount x.wbuf = c.maxIdx) (hal : Aligned c x L.pages.length)
    (hst : x.buffered ≠ some (x.next % c.numIdx)) {w : Page} (hw : pageCount w = 0) :
    IdxInv c { idxOut c x with wbuf := w } L ∧ Aligned c { idxOut c x with wbuf := w } L.pages.length := by
  unfold Aligned at hal
  have hal' : (x.next + 1) * c.maxIdx = L.pages.length := by rw [Nat.add_mul, Nat.one_mul, ← hal, hn]
  refine ⟨?_, by
    show (x.next + 1) * c.maxIdx + pageCount w = L.pages.length
    omega⟩
  have hN := hx.num0 hB
  have htwo := hx.two
  have hp := I.pages
  have hsum := I.sum
  have hml := I.minle
  have hm : x.min ≤ idxMin c x ∧ idxMin c x ≤ x.next ∧ x.next < idxMin c x + c.numIdx := by
    unfold idxMin; split_ifs <;> omega
  have hkeep : ∀ q, idxMin c x ≤ q → q < x.next →
      (idxOut c x).dev.file (q % c.numIdx) = x.dev.file (q % c.numIdx) := by
    intro q h1 h2
    unfold idxOut
    simp only
    rw [if_neg (show ¬ (q % c.numIdx = x.next % c.numIdx) from fun h => by
      have := mod_inj_window (by omega) (by omega) h; omega)]
    by_cases ha : x.avail = 0
    · rw [if_neg]
      rintro ⟨-, h3, h4⟩
      have e : x.next % c.numIdx = x.min % c.numIdx := by
        have : x.next = x.min + c.numIdx := by omega
        rw [this, Nat.add_mod_right]
      rw [e] at h3 h4
      have := block_window hN (by omega) (by omega) h3 h4
      unfold idxMin at h1
      rw [if_pos ha] at h1
      omega
    · rw [if_neg (fun h => ha h.1)]
  have hent : ∀ i, idxEntry c (idxPage x) i = idxEntry c x.wbuf i := by
    intro i
    unfold idxEntry idxPage
    exact rd_wr_disj _ _ _ _ _ (by rw [leBytes_length]; omega)
  refine ⟨by simp only; omega, ?_, ?_, ?_, ?_, ?_, ?_, ?_⟩
  · show (x.next + 1) * c.maxIdx + pageCount w ≤ _
    omega
  · intro i hi
    simp only at hi
    omega
  · intro q h1 h2
    have h1' : idxMin c x ≤ q := h1
    have h2' : q < x.next + 1 := h2
    show ∃ p, (idxOut c x).dev.file (q % c.numIdx) = some p ∧ _
    by_cases hq : q < x.next
    · rw [hkeep q h1' hq]
      exact I.stored q (by omega) hq
    · have hq' : q = x.next := by omega
      subst hq'
      refine ⟨idxPage x, by simp [idxOut], ?_⟩
      intro i hi
      rw [hent]
      have := I.buf i (by omega)
      rwa [show L.pages.length - pageCount x.wbuf + i = x.next * c.maxIdx + i by omega] at this
  · show idxMin c x ≤ x.next + 1; omega
  · show x.next + 1 + ((if x.avail = 0 then c.B else x.avail) - 1) = idxMin c x + c.numIdx
    unfold idxMin
    split_ifs <;> omega
  · intro ph h
    have := I.cacheN ph h
    exact ⟨this.1, show ph < x.next + 1 by omega⟩
  · intro ph h q h1 h2 h3
    have h1' : idxMin c x ≤ q := h1
    have h2' : q < x.next + 1 := h2
    have h' : x.buffered = some ph := h
    show (idxOut c x).dev.file ph = some x.rbuf
    by_cases hq : q < x.next
    · have := hkeep q h1' hq
      rw [h3] at this
      rw [this]
      exact I.cache ph h' q (by omega) hq h3
    · have hq' : q = x.next := by omega
      subst hq'
      rw [h3] at hst
      exact absurd h' hst

/-- The index part of `embedDBPut`. -/
theorem IdxInv.put (hx : c.IdxOk) (hio : ∀ n, c.ioOk n = true) (hB : 0 < c.B) (I : IdxInv c x L) (pn : Option Nat)
    (hst : pageCount x.wbuf ≥ c.maxIdx → x.buffered ≠ some (x.next % c.numIdx))
    (hal : pageCount x.wbuf ≥ c.maxIdx → Aligned c x L.pages.length) {bm : List Byte}
    (hl : bm.length = c.bitmapSize) {pg : List Rec} (hc : Covers c bm pg) (b : List Rec) :
    ∃ x', idxPut c x pn bm = .ok x' ∧ IdxInv c x' ⟨L.pages ++ [pg], b⟩ ∧
      (Aligned c x L.pages.length → Aligned c x' (L.pages.length + 1)) := by
  have hcap := hx.cap
  unfold idxPut
  by_cases hf : pageCount x.wbuf ≥ c.maxIdx
  · rw [if_pos hf, writeIdx_eq hio]
    have hw : pageCount (wr (initPage c) 8 (leBytes 4 (pn.getD (2 ^ 32 - 1)))) = 0 := by
      rw [← pageCount_initPage c]
      unfold pageCount
      rw [rd_wr_disj _ _ _ _ _ (by omega)]
    obtain ⟨I2, A2⟩ := I.write hx hB (by have := I.cnt; omega) (hal hf) (hst hf) hw
    have := I2.append hx (by simp only; omega) hl hc b
    exact ⟨_, this.1, this.2.1, fun _ => this.2.2 A2⟩
  · rw [if_neg hf]
    have := I.append hx (by omega) hl hc b
    exact ⟨_, this.1, this.2⟩

/-- The index part of `embedDBFlush`, when the index page becomes full with this bitmap. -/
theorem IdxInv.flush (hx : c.IdxOk) (hio : ∀ n, c.ioOk n = true) (hB : 0 < c.B) (I : IdxInv c x L)
    (hfull : pageCount x.wbuf + 1 = c.maxIdx) (hal : Aligned c x L.pages.length) (hst : x.buffered ≠ some (x.next % c.numIdx))
    {bm : List Byte} (hl : bm.length = c.bitmapSize) {pg : List Rec} (hc : Covers c bm pg) (b : List Rec) :
    ∃ x', idxFlush c x bm = .ok (x', true) ∧ IdxInv c x' ⟨L.pages ++ [pg], b⟩ ∧ Aligned c x' (L.pages.length + 1) := by
  obtain ⟨h1, h2, h3⟩ := I.append hx (by omega) hl hc b
  have hs := maxIdx_small hx
  have hcnt := idxNew_count (c := c) (x := x) (by omega) bm
  have := h2.write hx hB (by omega) (by
    have := h3 hal
    simpa using this) hst (pageCount_initPage c)
  rw [List.length_append, List.length_singleton] at this
  unfold idxFlush
  rw [h1, Res.ok_bind, writeIdx_eq hio]
  exact ⟨_, rfl, this⟩

/-- The index never skips a page with a matching record. -/
theorem IdxInv.skip (hx : c.IdxOk) (hB : 0 < c.B) (I : IdxInv c x L) {it : Iter}
    (hq : ∀ qb, it.qbm = some qb → qb = c.buildBm it.minData it.maxData) :
    ∃ x' sk, idxSkip c x it = .ok (x', some sk) ∧ IdxInv c x' L ∧
      (sk = true → it.slot = 0 ∧ it.page < L.pages.length ∧
        ∀ r ∈ L.pages.getD it.page [], it.range.has c.cmpData r = false) := by
  unfold idxSkip
  cases hqb : it.qbm with
  | none => exact ⟨x, false, rfl, I, (fun h => by cases h)⟩
  | some qb =>
    simp only
    by_cases hs : it.slot = 0
    · rw [if_pos hs]
      have hcap := hx.cap
      rw [if_neg (by rw [hx.index]; simp; omega)]
      by_cases hin : x.min ≤ it.page / c.maxIdx ∧ it.page / c.maxIdx < x.next
      · rw [if_pos hin]
        obtain ⟨p, p1, p2⟩ := I.stored _ hin.1 hin.2
        -- reading the index page
        have hread : ∃ x', readIdx x (it.page / c.maxIdx % c.numIdx) = (x', true) ∧ x'.rbuf = p ∧ IdxInv c x' L := by
          unfold readIdx
          by_cases hb : x.buffered = some (it.page / c.maxIdx % c.numIdx)
          · rw [if_pos hb]
            refine ⟨x, rfl, ?_, I⟩
            have := I.cache _ hb _ hin.1 hin.2 rfl
            rw [this] at p1
            exact Option.some.inj p1
          · rw [if_neg hb, p1]
            refine ⟨_, rfl, rfl, I.cnt, I.pages, I.buf, I.stored, I.minle, I.sum, ?_, ?_⟩
            · intro ph h
              have h' : some (it.page / c.maxIdx % c.numIdx) = some ph := h
              cases h'
              refine ⟨Nat.mod_lt _ (hx.num0 hB), ?_⟩
              exact lt_of_le_of_lt (Nat.mod_le _ _) hin.2
            · intro ph h q _ _ _
              have h' : some (it.page / c.maxIdx % c.numIdx) = some ph := h
              cases h'
              exact p1
        obtain ⟨x', r1, r2, r3⟩ := hread
        rw [r1]
        simp only [if_true]
        refine ⟨x', _, rfl, r3, ?_⟩
        intro hsk
        have hdm := Nat.div_add_mod it.page c.maxIdx
        have hmod := Nat.mod_lt it.page hcap
        have hpage : it.page / c.maxIdx * c.maxIdx + it.page % c.maxIdx = it.page := by rw [Nat.mul_comm]; exact hdm
        refine ⟨hs, ?_, ?_⟩
        · have h1 : (it.page / c.maxIdx + 1) * c.maxIdx ≤ x.next * c.maxIdx := Nat.mul_le_mul_right _ hin.2
          rw [Nat.add_mul] at h1
          have := I.pages
          omega
        · intro r hr
          have hcov := p2 _ hmod
          rw [hpage] at hcov
          rw [Bool.eq_false_iff]
          intro hin2
          have hw : Spec.within c.cmpData it.minData it.maxData r.2 = true := by
            unfold Range.has Iter.range at hin2
            unfold Spec.within
            simp only [Bool.and_eq_true] at hin2 ⊢
            exact ⟨hin2.1.2, hin2.2⟩
          have := overlap_of (hcov.meets r hr _ _ hw)
          rw [← hq qb hqb] at this
          unfold idxEntry at this
          rw [r2, Nat.mul_comm _ c.bitmapSize, this] at hsk
          cases hsk
      · rw [if_neg hin]
        exact ⟨x, false, rfl, I, (fun h => by cases h)⟩
    · rw [if_neg hs]
      exact ⟨x, false, rfl, I, (fun h => by cases h)⟩

end

end EDB
