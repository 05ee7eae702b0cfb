import Verif.Model.Data
import Verif.Proofs.Num
import Mathlib.Tactic.SplitIfs

/-! Helper lemmas: reading and writing bytes of a page, record slots, `appendRec`, `initPage`. -/

namespace EDB

theorem rd_length (p : Page) (o n : Nat) : (rd p o n).length = n := by simp [rd]

theorem rd_ext {p q : Page} {o n : Nat} (h : ∀ i, o ≤ i → i < o + n → p i = q i) : rd p o n = rd q o n := by
  unfold rd
  apply List.map_congr_left
  intro i hi
  rw [List.mem_range] at hi
  exact h _ (by omega) (by omega)

theorem wr_apply_out (p : Page) (o : Nat) (bs : List Byte) (i : Nat) (h : i < o ∨ o + bs.length ≤ i) :
    wr p o bs i = p i := by
  unfold wr; rw [if_neg]; omega

theorem rd_wr_same (p : Page) (o : Nat) (bs : List Byte) {n : Nat} (hn : bs.length = n) :
    rd (wr p o bs) o n = bs := by
  subst hn
  apply List.ext_getElem
  · simp [rd]
  · intro i h1 h2
    simp only [rd, List.getElem_map, List.getElem_range, wr]
    rw [if_pos (by omega)]
    simp [h2]

theorem rd_wr_disj (p : Page) (o : Nat) (bs : List Byte) (o' n : Nat) (h : o' + n ≤ o ∨ o + bs.length ≤ o') :
    rd (wr p o bs) o' n = rd p o' n := by
  apply rd_ext
  intro i h1 h2
  apply wr_apply_out
  omega

theorem leNat_rd_lt (p : Page) (o n : Nat) : leNat (rd p o n) < 256 ^ n := by
  have := leNat_lt (rd p o n)
  rwa [rd_length] at this

theorem slotKey_lt (c : Cfg) (p : Page) (i : Nat) : slotKey c p i < 256 ^ c.keySize := leNat_rd_lt _ _ _

theorem slotData_length (c : Cfg) (p : Page) (i : Nat) : (slotData c p i).length = c.dataSize := rd_length _ _ _

theorem pageCount_lt (p : Page) : pageCount p < 65536 := by
  have := leNat_rd_lt p 4 2
  simpa [pageCount] using this

theorem pageId_lt (p : Page) : pageId p < 2 ^ 32 := by
  have := leNat_rd_lt p 0 4
  simpa [pageId] using this

/-- Header fields lie inside the header and callbacks respect the bitmap size: the configurations for which
page maintenance cannot touch record slots (property C22 is about this). -/
structure Cfg.Layout (c : Cfg) : Prop where
  maxMin : c.useMaxMin = true → c.useIndex = true ∧ 8 ≤ c.bitmapSize
  bmap : c.useBmap = true → c.useIndex = true
  updLen : ∀ d b, b.length = c.bitmapSize → (c.updBm d b).length = c.bitmapSize

theorem hdr_ge (c : Cfg) : 6 ≤ c.hdr := by unfold Cfg.hdr; omega

theorem Cfg.Layout.minmax_hdr {c : Cfg} (h : c.Layout) (hm : c.useMaxMin = true) :
    minOff + c.keySize * 2 + c.dataSize * 2 ≤ c.hdr := by
  have := h.maxMin hm
  unfold Cfg.hdr minOff
  rw [if_pos this.1, if_pos hm]
  omega

theorem Cfg.Layout.bm_hdr {c : Cfg} (h : c.Layout) (hb : c.useBmap = true) : 6 + c.bitmapSize ≤ c.hdr := by
  have := h.bmap hb
  unfold Cfg.hdr
  rw [if_pos this]
  omega

/-- `p` and `q` agree on the page id, the count and everything from the record area on. -/
structure SameRecs (c : Cfg) (p q : Page) : Prop where
  cnt : rd p 4 2 = rd q 4 2
  area : ∀ i, c.hdr ≤ i → p i = q i

theorem SameRecs.refl (c : Cfg) (p : Page) : SameRecs c p p := ⟨rfl, fun _ _ => rfl⟩

theorem SameRecs.trans {c : Cfg} {p q r : Page} (h : SameRecs c p q) (h' : SameRecs c q r) : SameRecs c p r :=
  ⟨h.cnt.trans h'.cnt, fun i hi => (h.area i hi).trans (h'.area i hi)⟩

theorem SameRecs.symm {c : Cfg} {p q : Page} (h : SameRecs c p q) : SameRecs c q p :=
  ⟨h.cnt.symm, fun i hi => (h.area i hi).symm⟩

theorem SameRecs.count {c : Cfg} {p q : Page} (h : SameRecs c p q) : pageCount p = pageCount q := by
  unfold pageCount; rw [h.cnt]

theorem SameRecs.slotKey {c : Cfg} {p q : Page} (h : SameRecs c p q) (i : Nat) :
    slotKey c p i = slotKey c q i := by
  unfold EDB.slotKey
  rw [rd_ext]
  intro j hj _
  exact h.area j (by unfold slotOff at hj; omega)

theorem SameRecs.slotData {c : Cfg} {p q : Page} (h : SameRecs c p q) (i : Nat) :
    slotData c p i = slotData c q i := by
  unfold EDB.slotData
  rw [rd_ext]
  intro j hj _
  exact h.area j (by unfold slotOff at hj; omega)

/-- A write that stays between offset 6 and the end of the header keeps records and count. -/
theorem sameRecs_wr (c : Cfg) (p : Page) (o : Nat) (bs : List Byte) (h1 : 6 ≤ o) (h2 : o + bs.length ≤ c.hdr) :
    SameRecs c (wr p o bs) p where
  cnt := rd_wr_disj _ _ _ _ _ (by omega)
  area i hi := wr_apply_out _ _ _ _ (by omega)

/-- Writing the page id keeps records and count. -/
theorem sameRecs_id (c : Cfg) (p : Page) (v : Nat) : SameRecs c (wr p 0 (leBytes 4 v)) p where
  cnt := rd_wr_disj _ _ _ _ _ (by rw [leBytes_length]; omega)
  area i hi := wr_apply_out _ _ _ _ (by have := hdr_ge c; rw [leBytes_length]; omega)

theorem pageId_wr (p : Page) (v : Nat) : pageId (wr p 0 (leBytes 4 v)) = v % 2 ^ 32 := by
  unfold pageId
  rw [rd_wr_same _ _ _ (leBytes_length _ _), leNat_leBytes]; rfl

theorem sameRecs_updMinMax {c : Cfg} (hL : c.Layout) (hm : c.useMaxMin = true) (p : Page) (n k : Nat)
    (d : List Byte) (hd : d.length = c.dataSize) : SameRecs c (updMinMax c p n k d) p := by
  have hh := hL.minmax_hdr hm
  have hk : (leBytes c.keySize k).length = c.keySize := leBytes_length _ _
  have m : minOff = 14 := rfl
  unfold updMinMax
  have w1 : ∀ q, SameRecs c (wr q minOff (leBytes c.keySize k)) q :=
    fun q => sameRecs_wr c q _ _ (by omega) (by omega)
  have w2 : ∀ q, SameRecs c (wr q (minOff + c.keySize) (leBytes c.keySize k)) q :=
    fun q => sameRecs_wr c q _ _ (by omega) (by omega)
  have w3 : ∀ q, SameRecs c (wr q (minOff + c.keySize * 2) d) q :=
    fun q => sameRecs_wr c q _ _ (by omega) (by omega)
  have w4 : ∀ q, SameRecs c (wr q (minOff + c.keySize * 2 + c.dataSize) d) q :=
    fun q => sameRecs_wr c q _ _ (by omega) (by omega)
  by_cases h0 : n ≠ 0
  · simp only [if_pos h0]
    split_ifs
    · exact (w4 _).trans ((w3 _).trans (w2 _))
    · exact (w3 _).trans (w2 _)
    · exact (w4 _).trans (w2 _)
    · exact w2 _
  · simp only [if_neg h0]
    exact (w4 _).trans ((w3 _).trans ((w2 _).trans (w1 _)))

theorem sameRecs_updHdrBm {c : Cfg} (hL : c.Layout) (hb : c.useBmap = true) (p : Page)
    (d : List Byte) : SameRecs c (updHdrBm c p d) p := by
  have hh := hL.bm_hdr hb
  unfold updHdrBm
  apply sameRecs_wr c p _ _ (le_refl _)
  rw [hL.updLen _ _ (rd_length _ _ _)]
  exact hh

/-- The page after the record bytes and the count were written, before min/max and bitmap maintenance. -/
def appendCore (c : Cfg) (p : Page) (key : Nat) (data : List Byte) (loc : Nat) : Page :=
  let count := pageCount p
  let p := wr p (slotOff c count) (leBytes c.keySize key)
  let p := wr p (slotOff c count + c.keySize) data
  let p := if c.useVdata then wr p (slotOff c count + c.keySize + c.dataSize) (leBytes 4 loc) else p
  incCount p

theorem appendRec_same {c : Cfg} (hL : c.Layout) (p : Page) (key : Nat) (data : List Byte) (loc : Nat)
    (hd : data.length = c.dataSize) : SameRecs c (appendRec c p key data loc) (appendCore c p key data loc) := by
  unfold appendRec appendCore
  simp only
  by_cases hm : c.useMaxMin = true <;> by_cases hb : c.useBmap = true
  · rw [if_pos hb]
    refine (sameRecs_updHdrBm hL hb _ _).trans ?_
    rw [if_pos hm]
    exact sameRecs_updMinMax hL hm _ _ _ _ hd
  · rw [if_neg hb, if_pos hm]
    exact sameRecs_updMinMax hL hm _ _ _ _ hd
  · rw [if_pos hb]
    refine (sameRecs_updHdrBm hL hb _ _).trans ?_
    rw [if_neg hm]
    exact SameRecs.refl _ _
  · rw [if_neg hb, if_neg hm]
    exact SameRecs.refl _ _

/-- `recSize` covers key and data. -/
theorem recSize_ge (c : Cfg) : c.keySize + c.dataSize ≤ c.recSize := by unfold Cfg.recSize; omega

theorem slotOff_succ_le (c : Cfg) {i j : Nat} (h : i < j) : slotOff c i + c.recSize ≤ slotOff c j := by
  unfold slotOff
  have : c.recSize * (i + 1) ≤ c.recSize * j := Nat.mul_le_mul_left _ h
  rw [Nat.mul_add] at this
  omega

theorem slotOff_ge (c : Cfg) (i : Nat) : c.hdr ≤ slotOff c i := by unfold slotOff; omega

/-- Bytes of `appendCore` outside the new record and the count. -/
theorem appendCore_out (c : Cfg) (p : Page) (key : Nat) (data : List Byte) (loc : Nat)
    (hd : data.length = c.dataSize) (i : Nat)
    (h : i < 4 ∨ 6 ≤ i) (h2 : i < slotOff c (pageCount p) ∨ slotOff c (pageCount p) + c.recSize ≤ i) :
    appendCore c p key data loc i = p i := by
  have hk : (leBytes c.keySize key).length = c.keySize := leBytes_length _ _
  have hl : (leBytes 4 loc).length = 4 := leBytes_length _ _
  have hr : c.recSize = c.keySize + c.dataSize + (if c.useVdata then 4 else 0) := rfl
  unfold appendCore incCount
  rw [wr_apply_out _ _ _ _ (by rw [leBytes_length]; omega)]
  by_cases hv : c.useVdata = true
  · rw [if_pos hv] at hr ⊢
    rw [wr_apply_out _ _ _ _ (by omega), wr_apply_out _ _ _ _ (by omega), wr_apply_out _ _ _ _ (by omega)]
  · rw [if_neg hv] at hr ⊢
    rw [wr_apply_out _ _ _ _ (by omega), wr_apply_out _ _ _ _ (by omega)]

theorem appendCore_count (c : Cfg) (p : Page) (key : Nat) (data : List Byte) (loc : Nat) :
    pageCount (appendCore c p key data loc) = (pageCount p + 1) % 65536 := by
  have hh := hdr_ge c
  have hs := slotOff_ge c (pageCount p)
  have e : ∀ q, pageCount (incCount q) = (pageCount q + 1) % 65536 := by
    intro q
    unfold incCount
    show leNat (rd (wr q 4 (leBytes 2 (pageCount q + 1))) 4 2) = _
    rw [rd_wr_same _ _ _ (leBytes_length _ _), leNat_leBytes]; rfl
  unfold appendCore
  simp only
  rw [e]
  congr 2
  unfold pageCount at hs ⊢
  split_ifs
  · rw [rd_wr_disj _ _ _ _ _ (by omega), rd_wr_disj _ _ _ _ _ (by omega), rd_wr_disj _ _ _ _ _ (by omega)]
  · rw [rd_wr_disj _ _ _ _ _ (by omega), rd_wr_disj _ _ _ _ _ (by omega)]

theorem appendCore_key_old (c : Cfg) (p : Page) (key : Nat) (data : List Byte) (loc : Nat)
    (hd : data.length = c.dataSize) {i : Nat} (hi : i < pageCount p) :
    slotKey c (appendCore c p key data loc) i = slotKey c p i := by
  unfold slotKey
  rw [rd_ext]
  intro j h1 h2
  have hh := hdr_ge c
  have := slotOff_succ_le c hi
  have := recSize_ge c
  have := slotOff_ge c i
  exact appendCore_out c p key data loc hd j (by omega) (by omega)

theorem appendCore_data_old (c : Cfg) (p : Page) (key : Nat) (data : List Byte) (loc : Nat)
    (hd : data.length = c.dataSize) {i : Nat} (hi : i < pageCount p) :
    slotData c (appendCore c p key data loc) i = slotData c p i := by
  unfold slotData
  rw [rd_ext]
  intro j h1 h2
  have hh := hdr_ge c
  have := slotOff_succ_le c hi
  have := recSize_ge c
  have := slotOff_ge c i
  exact appendCore_out c p key data loc hd j (by omega) (by omega)

theorem appendCore_key_new (c : Cfg) (p : Page) (key : Nat) (data : List Byte) (loc : Nat)
    (hk : key < 256 ^ c.keySize) :
    slotKey c (appendCore c p key data loc) (pageCount p) = key := by
  have hkl : (leBytes c.keySize key).length = c.keySize := leBytes_length _ _
  have hh := hdr_ge c
  have hs := slotOff_ge c (pageCount p)
  unfold slotKey appendCore incCount
  simp only
  rw [rd_wr_disj _ _ _ _ _ (by rw [leBytes_length]; omega)]
  split_ifs
  · rw [rd_wr_disj _ _ _ _ _ (by omega), rd_wr_disj _ _ _ _ _ (by omega), rd_wr_same _ _ _ hkl,
      leNat_leBytes_of_lt hk]
  · rw [rd_wr_disj _ _ _ _ _ (by omega), rd_wr_same _ _ _ hkl, leNat_leBytes_of_lt hk]

theorem appendCore_data_new (c : Cfg) (p : Page) (key : Nat) (data : List Byte) (loc : Nat)
    (hd : data.length = c.dataSize) :
    slotData c (appendCore c p key data loc) (pageCount p) = data := by
  have hh := hdr_ge c
  have hs := slotOff_ge c (pageCount p)
  unfold slotData appendCore incCount
  simp only
  rw [rd_wr_disj _ _ _ _ _ (by rw [leBytes_length]; omega)]
  split_ifs
  · rw [rd_wr_disj _ _ _ _ _ (by omega), rd_wr_same _ _ _ hd]
  · rw [rd_wr_same _ _ _ hd]

/-! ### The records of a page -/

/-- A record: key and data bytes. -/
abbrev Rec := Nat × List Byte

/-- The records stored on a page, in slot order. -/
def recs (c : Cfg) (p : Page) : List Rec := (List.range (pageCount p)).map fun i => (slotKey c p i, slotData c p i)

theorem recs_length (c : Cfg) (p : Page) : (recs c p).length = pageCount p := by simp [recs]

theorem recs_getElem (c : Cfg) (p : Page) (i : Nat) (h : i < (recs c p).length) :
    (recs c p)[i] = (slotKey c p i, slotData c p i) := by simp [recs]

theorem recs_getElem? (c : Cfg) (p : Page) (i : Nat) (h : i < pageCount p) :
    (recs c p)[i]? = some (slotKey c p i, slotData c p i) := by simp [recs, h]

theorem mem_recs {c : Cfg} {p : Page} {r : Rec} :
    r ∈ recs c p ↔ ∃ i, i < pageCount p ∧ r = (slotKey c p i, slotData c p i) := by
  unfold recs
  rw [List.mem_map]
  constructor
  · rintro ⟨i, hi, rfl⟩; exact ⟨i, List.mem_range.mp hi, rfl⟩
  · rintro ⟨i, hi, rfl⟩; exact ⟨i, List.mem_range.mpr hi, rfl⟩

theorem SameRecs.recs {c : Cfg} {p q : Page} (h : SameRecs c p q) : recs c p = recs c q := by
  unfold EDB.recs
  rw [h.count]
  apply List.map_congr_left
  intro i _
  rw [h.slotKey, h.slotData]

theorem recs_append {c : Cfg} (hL : c.Layout) (p : Page) (key : Nat) (data : List Byte) (loc : Nat)
    (hd : data.length = c.dataSize) (hk : key < 256 ^ c.keySize) (hn : pageCount p < 65535) :
    recs c (appendRec c p key data loc) = recs c p ++ [(key, data)] := by
  rw [(appendRec_same hL p key data loc hd).recs]
  unfold recs
  rw [appendCore_count, Nat.mod_eq_of_lt (by omega), List.range_succ, List.map_append]
  congr 1
  · apply List.map_congr_left
    intro i hi
    rw [List.mem_range] at hi
    rw [appendCore_key_old c p key data loc hd hi, appendCore_data_old c p key data loc hd hi]
  · simp only [List.map_cons, List.map_nil]
    rw [appendCore_key_new c p key data loc hk, appendCore_data_new c p key data loc hd]

theorem count_append {c : Cfg} (hL : c.Layout) (p : Page) (key : Nat) (data : List Byte) (loc : Nat)
    (hd : data.length = c.dataSize) (hn : pageCount p < 65535) :
    pageCount (appendRec c p key data loc) = pageCount p + 1 := by
  rw [(appendRec_same hL p key data loc hd).count, appendCore_count, Nat.mod_eq_of_lt (by omega)]

theorem count_init (c : Cfg) : pageCount (initPage c) = 0 := by
  have m : minOff = 14 := rfl
  unfold initPage pageCount
  simp only
  rw [rd_wr_disj _ _ _ _ _ (by omega), rd_wr_disj _ _ _ _ _ (by omega)]
  rfl

theorem recs_init (c : Cfg) : recs c (initPage c) = [] := by
  unfold recs; rw [count_init]; rfl

theorem pageMinKey_eq {c : Cfg} {p : Page} {r : Rec} {l : List Rec} (h : recs c p = r :: l) :
    pageMinKey c p = r.1 := by
  have hl : 0 < (recs c p).length := by rw [h]; simp
  have := recs_getElem c p 0 hl
  simp only [h, List.getElem_cons_zero] at this
  rw [this]; rfl

theorem pageMaxKey_eq {c : Cfg} {p : Page} {r : Rec} {l : List Rec} (h : recs c p = l ++ [r]) :
    pageMaxKey c p = r.1 := by
  have hl : (recs c p).length = l.length + 1 := by rw [h]; simp
  have := recs_getElem c p l.length (by omega)
  rw [recs_length] at hl
  simp only [h, List.getElem_concat_length] at this
  unfold pageMaxKey
  rw [hl, this]; rfl

end EDB
