import Verif.Proofs.IdxScan
import Verif.Props.Layout
import Verif.Spec.Stats

/-!
# C48: page header statistics
-/

namespace EDB

open Spec (Log Range Op Out)

/-- embedDB.h:95-98 `EMBEDDB_GET_MIN_KEY`, `_MAX_KEY`, `_MIN_DATA`, `_MAX_DATA`. -/
def hdrMinKey (c : Cfg) (p : Page) : List Byte := rd p 14 c.keySize
@[inherit_doc hdrMinKey] def hdrMaxKey (c : Cfg) (p : Page) : List Byte := rd p (14 + c.keySize) c.keySize
@[inherit_doc hdrMinKey] def hdrMinData (c : Cfg) (p : Page) : List Byte := rd p (14 + c.keySize * 2) c.dataSize
@[inherit_doc hdrMinKey] def hdrMaxData (c : Cfg) (p : Page) : List Byte :=
  rd p (14 + c.keySize * 2 + c.dataSize) c.dataSize

section
variable {c : Cfg} {K : Nat}

/-- The fields after appending a record. -/
theorem fields_append (hL : c.Layout) (hm : c.useMaxMin = true) (hb : c.useBmap = true → c.bitmapSize ≤ 8) (p : Page)
    (key : Nat) (data : List Byte) (loc : Nat) (hd : data.length = c.dataSize) :
    hdrMinKey c (appendRec c p key data loc) =
      (if pageCount p ≠ 0 then hdrMinKey c p else leBytes c.keySize key) ∧
    hdrMaxKey c (appendRec c p key data loc) = leBytes c.keySize key ∧
    hdrMinData c (appendRec c p key data loc) =
      (if pageCount p ≠ 0 then (if c.cmpData data (hdrMinData c p) < 0 then data else hdrMinData c p) else data) ∧
    hdrMaxData c (appendRec c p key data loc) =
      (if pageCount p ≠ 0 then (if c.cmpData data (hdrMaxData c p) > 0 then data else hdrMaxData c p) else data) := by
  have hh := hL.minmax_hdr hm
  have m : minOff = 14 := rfl
  have hk : (leBytes c.keySize key).length = c.keySize := leBytes_length _ _
  -- the page after the record was copied
  obtain ⟨p1, hp1, e1⟩ : ∃ p1, (∀ o n, 14 ≤ o → o + n ≤ c.hdr → rd p1 o n = rd p o n) ∧
      appendRec c p key data loc =
        (if c.useBmap then updHdrBm c (updMinMax c p1 (pageCount p) key data) data
          else updMinMax c p1 (pageCount p) key data) := by
    refine ⟨appendCore c p key data loc, ?_, ?_⟩
    · intro o n h1 h2
      apply rd_ext
      intro i hi1 hi2
      have hs := slotOff_ge c (pageCount p)
      rw [appendCore_out c p key data loc hd i (by omega) (by omega)]
    · unfold appendRec appendCore
      simp only [hm, if_true]
  have e2 : ∀ q o n, 14 ≤ o → rd (if c.useBmap then updHdrBm c q data else q) o n = rd q o n := by
    intro q o n ho
    split_ifs with h
    · unfold updHdrBm
      have := hL.updLen data (rd q 6 c.bitmapSize) (rd_length _ _ _)
      have := hb h
      exact rd_wr_disj _ _ _ _ _ (by omega)
    · rfl
  have e3 : appendRec c p key data loc = (if c.useBmap then updHdrBm c (updMinMax c p1 (pageCount p) key data) data
      else updMinMax c p1 (pageCount p) key data) := e1
  unfold hdrMinKey hdrMaxKey hdrMinData hdrMaxData
  rw [e3, e2 _ _ _ (by omega), e2 _ _ _ (by omega), e2 _ _ _ (by omega), e2 _ _ _ (by omega)]
  have q1 := hp1 14 c.keySize (by omega) (by omega)
  have q3 := hp1 (14 + c.keySize * 2) c.dataSize (by omega) (by omega)
  have q4 := hp1 (14 + c.keySize * 2 + c.dataSize) c.dataSize (by omega) (by omega)
  unfold updMinMax
  simp only [m]
  by_cases hn : pageCount p ≠ 0
  · simp only [if_pos hn]
    have r3 : rd (wr p1 (14 + c.keySize) (leBytes c.keySize key)) (14 + c.keySize * 2) c.dataSize =
        rd p (14 + c.keySize * 2) c.dataSize := by rw [rd_wr_disj _ _ _ _ _ (by omega), q3]
    have r4 : rd (wr p1 (14 + c.keySize) (leBytes c.keySize key)) (14 + c.keySize * 2 + c.dataSize) c.dataSize =
        rd p (14 + c.keySize * 2 + c.dataSize) c.dataSize := by rw [rd_wr_disj _ _ _ _ _ (by omega), q4]
    have r2 : rd (wr p1 (14 + c.keySize) (leBytes c.keySize key)) (14 + c.keySize) c.keySize = leBytes c.keySize key :=
      rd_wr_same _ _ _ hk
    have r1 : rd (wr p1 (14 + c.keySize) (leBytes c.keySize key)) 14 c.keySize = rd p 14 c.keySize := by
      rw [rd_wr_disj _ _ _ _ _ (by omega), q1]
    rw [r3]
    by_cases h3 : c.cmpData data (rd p (14 + c.keySize * 2) c.dataSize) < 0
    · simp only [if_pos h3]
      rw [rd_wr_disj _ _ _ (14 + c.keySize * 2 + c.dataSize) _ (by omega), r4]
      by_cases h4 : c.cmpData data (rd p (14 + c.keySize * 2 + c.dataSize) c.dataSize) > 0
      · simp only [if_pos h4]
        refine ⟨?_, ?_, ?_, ?_⟩
        · rw [rd_wr_disj _ _ _ _ _ (by omega), rd_wr_disj _ _ _ _ _ (by omega), r1]
        · rw [rd_wr_disj _ _ _ _ _ (by omega), rd_wr_disj _ _ _ _ _ (by omega), r2]
        · rw [rd_wr_disj _ _ _ _ _ (by omega), rd_wr_same _ _ _ hd]
        · rw [rd_wr_same _ _ _ hd]
      · simp only [if_neg h4]
        refine ⟨?_, ?_, ?_, ?_⟩
        · rw [rd_wr_disj _ _ _ _ _ (by omega), r1]
        · rw [rd_wr_disj _ _ _ _ _ (by omega), r2]
        · rw [rd_wr_same _ _ _ hd]
        · rw [rd_wr_disj _ _ _ _ _ (by omega), r4]
    · simp only [if_neg h3]
      rw [r4]
      by_cases h4 : c.cmpData data (rd p (14 + c.keySize * 2 + c.dataSize) c.dataSize) > 0
      · simp only [if_pos h4]
        refine ⟨?_, ?_, ?_, ?_⟩
        · rw [rd_wr_disj _ _ _ _ _ (by omega), r1]
        · rw [rd_wr_disj _ _ _ _ _ (by omega), r2]
        · rw [rd_wr_disj _ _ _ _ _ (by omega), r3]
        · rw [rd_wr_same _ _ _ hd]
      · simp only [if_neg h4]
        exact ⟨r1, r2, r3, r4⟩
  · simp only [if_neg hn]
    refine ⟨?_, ?_, ?_, ?_⟩
    · rw [rd_wr_disj _ _ _ _ _ (by omega), rd_wr_disj _ _ _ _ _ (by omega), rd_wr_disj _ _ _ _ _ (by omega),
        rd_wr_same _ _ _ hk]
    · rw [rd_wr_disj _ _ _ _ _ (by omega), rd_wr_disj _ _ _ _ _ (by omega), rd_wr_same _ _ _ hk]
    · rw [rd_wr_disj _ _ _ _ _ (by omega), rd_wr_same _ _ _ hd]
    · rw [rd_wr_same _ _ _ hd]

/-- Header and records of a page agree. -/
structure HdrOk (c : Cfg) (p : Page) : Prop where
  /-- with EMBEDDB_USE_MAX_MIN: the four fields -/
  stats : c.useMaxMin = true → recs c p ≠ [] →
    Spec.Stats c.cmpData (recs c p) (leNat (hdrMinKey c p)) (leNat (hdrMaxKey c p)) (hdrMinData c p) (hdrMaxData c p)
  /-- with EMBEDDB_USE_BMAP: the bitmap (`initBufferPage` leaves an all-zero bitmap if it has at most 8 bytes) -/
  bitmap : c.useBmap = true → hdrBm c p = (recs c p).foldl (fun b r => c.updBm r.2 b) (hdrBm c (initPage c))

/-- The initial bitmap is empty if it fits before the min/max area. -/
theorem initBm_zero (h : c.bitmapSize ≤ 8) : hdrBm c (initPage c) = List.replicate c.bitmapSize 0 := by
  have m : minOff = 14 := rfl
  unfold hdrBm initPage
  simp only
  rw [rd_wr_disj _ _ _ _ _ (by omega), rd_wr_disj _ _ _ _ _ (by omega)]
  unfold rd
  simp [List.map_const']

theorem HdrOk.init (c : Cfg) : HdrOk c (initPage c) :=
  ⟨fun _ h => absurd (recs_init c) h, fun _ => by rw [recs_init]; rfl⟩

/-- Appending a record with a larger key keeps the header right. -/
theorem HdrOk.append (hL : c.Layout) (hb : c.useMaxMin = true → c.useBmap = true → c.bitmapSize ≤ 8)
    (hT : Spec.TotalOrder c.dataSize c.cmpData) {p : Page} (h : HdrOk c p) {key : Nat} {data : List Byte} (loc : Nat)
    (hd : data.length = c.dataSize) (hk : key < 256 ^ c.keySize) (hn : pageCount p < 65535)
    (hasc : ∀ r ∈ recs c p, r.1 < key) : HdrOk c (appendRec c p key data loc) := by
  have hr := recs_append hL p key data loc hd hk hn
  have hcount : pageCount p = (recs c p).length := (recs_length c p).symm
  refine ⟨?_, ?_⟩
  · intro hm _
    obtain ⟨f1, f2, f3, f4⟩ := fields_append hL hm (hb hm) p key data loc hd
    have hkey : leNat (leBytes c.keySize key) = key := leNat_leBytes_of_lt hk
    have hself := hT.refl data hd
    rw [hr, f1, f2, f3, f4, hkey]
    by_cases he : recs c p = []
    · have h0 : ¬ pageCount p ≠ 0 := by rw [hcount, he]; simp
      rw [if_neg h0, if_neg h0, if_neg h0, he, hkey, List.nil_append]
      refine ⟨⟨⟨_, List.mem_singleton_self _, rfl⟩, ?_⟩, ⟨⟨_, List.mem_singleton_self _, rfl⟩, ?_⟩,
        ⟨⟨_, List.mem_singleton_self _, rfl⟩, ?_⟩, ⟨⟨_, List.mem_singleton_self _, rfl⟩, ?_⟩⟩ <;>
        (intro r hr; rw [List.mem_singleton.mp hr])
      · rw [hself]
      · rw [hself]
    · have h0 : pageCount p ≠ 0 := by rw [hcount]; intro h; exact he (List.length_eq_zero_iff.mp h)
      rw [if_pos h0, if_pos h0, if_pos h0]
      have S := h.stats hm he
      have hlen : ∀ r ∈ recs c p, r.2.length = c.dataSize := by
        intro r hr
        obtain ⟨i, _, rfl⟩ := mem_recs.mp hr
        exact rd_length _ _ _
      have l1 : (hdrMinData c p).length = c.dataSize := rd_length _ _ _
      have l2 : (hdrMaxData c p).length = c.dataSize := rd_length _ _ _
      have hnew : (key, data) ∈ recs c p ++ [(key, data)] := List.mem_append_right _ (List.mem_singleton_self _)
      have hold : ∀ r, r ∈ recs c p → r ∈ recs c p ++ [(key, data)] := fun r h => List.mem_append_left _ h
      refine ⟨⟨?_, ?_⟩, ⟨⟨_, hnew, rfl⟩, ?_⟩, ⟨?_, ?_⟩, ⟨?_, ?_⟩⟩
      · obtain ⟨r, r1, r2⟩ := S.minKey.1
        exact ⟨r, hold r r1, r2⟩
      · intro r hr
        rcases List.mem_append.mp hr with hr | hr
        · exact S.minKey.2 r hr
        · rw [List.mem_singleton.mp hr]
          obtain ⟨s, s1, s2⟩ := S.minKey.1
          have := hasc s s1
          simp only; omega
      · intro r hr
        rcases List.mem_append.mp hr with hr | hr
        · exact (hasc r hr).le
        · rw [List.mem_singleton.mp hr]
      · split_ifs
        · exact ⟨_, hnew, rfl⟩
        · obtain ⟨r, r1, r2⟩ := S.minData.1
          exact ⟨r, hold r r1, r2⟩
      · intro r hr
        rcases List.mem_append.mp hr with hr | hr
        · split_ifs with hc
          · exact hT.trans _ _ _ hd l1 (hlen r hr) hc.le (S.minData.2 r hr)
          · exact S.minData.2 r hr
        · rw [List.mem_singleton.mp hr]
          split_ifs with hc
          · rw [hself]
          · have := hT.flip (hdrMinData c p) data l1 hd
            simp only; omega
      · split_ifs
        · exact ⟨_, hnew, rfl⟩
        · obtain ⟨r, r1, r2⟩ := S.maxData.1
          exact ⟨r, hold r r1, r2⟩
      · intro r hr
        rcases List.mem_append.mp hr with hr | hr
        · split_ifs with hc
          · have h1 := (hT.flip _ _ hd l2).mp hc
            have h2 := S.maxData.2 r hr
            have h3 : c.cmpData r.2 (hdrMaxData c p) ≤ 0 := by
              have := hT.flip r.2 (hdrMaxData c p) (hlen r hr) l2
              omega
            have h4 := hT.trans _ _ _ (hlen r hr) l2 hd h3 h1.le
            have := hT.flip r.2 data (hlen r hr) hd
            omega
          · exact S.maxData.2 r hr
        · rw [List.mem_singleton.mp hr]
          split_ifs with hc
          · rw [hself]
          · have := hT.flip data (hdrMaxData c p) hd l2
            simp only; omega
  · intro hbm
    rw [hdrBm_append hbm (hL.bmap hbm) (fun hm => hb hm hbm) hL.updLen p key data loc hd, hr, List.foldl_append,
      h.bitmap hbm]
    rfl

theorem HdrOk.id {p : Page} (h : HdrOk c p) (v : Nat) : HdrOk c (wr p 0 (leBytes 4 v)) := by
  have e := (sameRecs_id c p v).recs
  have r : ∀ o n, 4 ≤ o → rd (wr p 0 (leBytes 4 v)) o n = rd p o n := by
    intro o n ho
    exact rd_wr_disj _ _ _ _ _ (by rw [leBytes_length]; omega)
  refine ⟨?_, ?_⟩
  · intro hm hne
    rw [e] at hne ⊢
    unfold hdrMinKey hdrMaxKey hdrMinData hdrMaxData
    rw [r _ _ (by omega), r _ _ (by omega), r _ _ (by omega), r _ _ (by omega)]
    exact h.stats hm hne
  · intro hb
    rw [e]
    unfold hdrBm
    rw [r _ _ (by omega)]
    exact h.bitmap hb

/-! ### Histories -/

/-- The write buffer and every page written so far have a correct header. -/
structure HdrInv (c : Cfg) (K : Nat) (d : Data) : Prop where
  count : pageCount d.wbuf ≤ c.maxRec
  keys : ∀ r ∈ recs c d.wbuf, r.1 < K
  sorted : (recs c d.wbuf).Pairwise (fun r s => r.1 < s.1)
  buf : HdrOk c d.wbuf
  log : ∀ ph p, Ev.write ph p ∈ d.dev.log → HdrOk c p

theorem HdrInv.congr {d d' : Data} (I : HdrInv c K d) (E : SameButCache d d') : HdrInv c K d' :=
  ⟨by rw [E.wbuf]; exact I.count, by rw [E.wbuf]; exact I.keys, by rw [E.wbuf]; exact I.sorted,
    by rw [E.wbuf]; exact I.buf, by rw [E.dev]; exact I.log⟩

theorem HdrInv.out {d : Data} (I : HdrInv c K d) {d' : Data} (h : d'.dev = outDev c d) (hw : d'.wbuf = initPage c) :
    HdrInv c K d' := by
  refine ⟨by rw [hw, count_init]; exact Nat.zero_le _, by rw [hw, recs_init]; simp, by rw [hw, recs_init]; simp,
    by rw [hw]; exact HdrOk.init c, ?_⟩
  rw [h]
  intro ph p hp
  unfold outDev at hp
  simp only at hp
  rcases List.mem_append.mp hp with hp | hp
  · rcases List.mem_append.mp hp with hp | hp
    · exact I.log ph p hp
    · split_ifs at hp <;> simp at hp
  · simp only [List.mem_singleton, Ev.write.injEq] at hp
    rw [hp.2]
    exact I.buf.id _

/-- What the order check guarantees about the current page. -/
theorem orderCheck_asc (hc : CmpOk c.cmpKey K) {d : Data} (I : HdrInv c K d) {key : Nat} (hk : key < K)
    (h : (orderCheck c d key).2 = true) : ∀ r ∈ recs c d.wbuf, r.1 < key := by
  intro r hr
  have hpos : 0 < pageCount d.wbuf := by
    rw [← recs_length c]
    exact List.length_pos_of_mem hr
  unfold orderCheck at h
  simp only at h
  rw [if_pos (Or.inr hpos), if_neg (show ¬ pageCount d.wbuf = 0 by omega)] at h
  have hl : pageCount d.wbuf - 1 < (recs c d.wbuf).length := by rw [recs_length]; omega
  have hlast := recs_getElem c d.wbuf (pageCount d.wbuf - 1) hl
  have hlm : (recs c d.wbuf)[pageCount d.wbuf - 1] ∈ recs c d.wbuf := List.getElem_mem hl
  have hlk := I.keys _ hlm
  rw [hlast] at hlk
  have hgt : slotKey c d.wbuf (pageCount d.wbuf - 1) < key := (hc.gt _ _ hk hlk).mp (by simpa using h)
  obtain ⟨i, hi, rfl⟩ := List.mem_iff_getElem.mp hr
  rw [recs_length] at hi
  rcases Nat.eq_or_lt_of_le (show i ≤ pageCount d.wbuf - 1 by omega) with he | hlt
  · subst he; rw [hlast]; exact hgt
  · have := List.pairwise_iff_getElem.mp I.sorted i _ (by rw [recs_length]; omega) hl hlt
    rw [hlast] at this
    exact lt_trans this hgt

theorem HdrInv.step (hok : c.Ok K) (hK : K ≤ 256 ^ c.keySize)
    (hb : c.useMaxMin = true → c.useBmap = true → c.bitmapSize ≤ 8)
    (hT : Spec.TotalOrder c.dataSize c.cmpData) {d d' : Data} {x x' : Idx} {op : Op} {o : Out} (I : HdrInv c K d)
    (hp : ∀ k v, op = .put k v → k < K ∧ v.length = c.dataSize) (e : stepX c d x op = .ok (d', x', o)) :
    HdrInv c K d' := by
  have hcap := hok.cap
  have hcap16 := hok.cap16
  cases op with
  | put k v =>
    obtain ⟨hk, hv⟩ := hp k v rfl
    simp only [stepX] at e
    rw [putX_eq hok] at e
    by_cases ho : (orderCheck c d k).2 = true
    · have hasc := orderCheck_asc hok.cmp I hk ho
      rw [if_pos ho] at e
      obtain ⟨y, hy, e⟩ := Res.bind_eq_ok e
      obtain ⟨x1, _, hy⟩ := Res.bind_eq_ok hy
      cases hy
      simp only [Res.ok.injEq, Prod.mk.injEq] at e
      obtain ⟨rfl, _, _⟩ := e
      have J := I.congr (orderCheck_same (c := c) d k)
      have hw := (orderCheck_same (c := c) d k).wbuf
      generalize (orderCheck c d k).1 = d1 at J hw
      -- the page the record goes to
      obtain ⟨d2, e2, J2, n2, a2⟩ : ∃ d2, accepted c d1 k v 0 = { d2 with wbuf := appendRec c d2.wbuf k v 0 } ∧
          HdrInv c K d2 ∧ pageCount d2.wbuf < c.maxRec ∧ ∀ r ∈ recs c d2.wbuf, r.1 < k := by
        unfold accepted
        simp only
        by_cases hf : pageCount d1.wbuf ≥ c.maxRec
        · rw [if_pos hf]
          refine ⟨_, rfl, J.out rfl rfl, ?_, ?_⟩
          · show pageCount (initPage c) < _; rw [count_init]; exact hcap
          · show ∀ r ∈ recs c (initPage c), _; rw [recs_init]; simp
        · rw [if_neg hf]
          exact ⟨d1, rfl, J, by omega, by rw [hw]; exact hasc⟩
      rw [e2]
      have hr := recs_append hok.layout d2.wbuf k v 0 hv (by omega) (by omega)
      refine ⟨?_, ?_, ?_, J2.buf.append hok.layout hb hT 0 hv (by omega) (by omega) a2, J2.log⟩
      · show pageCount (appendRec c d2.wbuf k v 0) ≤ _
        rw [append_count hok _ _ _ _ hv (by omega)]; omega
      · show ∀ r ∈ recs c (appendRec c d2.wbuf k v 0), _
        rw [hr]
        intro r hr
        rcases List.mem_append.mp hr with hr | hr
        · exact J2.keys r hr
        · rw [List.mem_singleton.mp hr]; exact hk
      · show (recs c (appendRec c d2.wbuf k v 0)).Pairwise _
        rw [hr, List.pairwise_append]
        refine ⟨J2.sorted, List.pairwise_singleton _ _, ?_⟩
        intro r hr s hs
        rw [List.mem_singleton.mp hs]
        exact a2 r hr
    · rw [if_neg ho] at e
      simp only [Res.ok_bind, Res.ok.injEq, Prod.mk.injEq] at e
      obtain ⟨rfl, _, _⟩ := e
      exact I.congr (orderCheck_same d k)
  | flush =>
    simp only [stepX] at e
    obtain ⟨⟨d1, x1, r, w⟩, hy, e⟩ := Res.bind_eq_ok e
    cases e
    unfold flushX at hy
    by_cases h1 : pageCount d.wbuf < 1
    · rw [if_pos h1] at hy
      cases hy
      exact I
    · rw [if_neg h1, writePage_eq hok.io hok.spline, Res.ok_bind] at hy
      simp only at hy
      have e1 : (indexPage c (outData c d) (some d.next)).dev = outDev c d := by
        unfold indexPage; rw [hok.spline]; rfl
      have e2 : (indexPage c (outData c d) (some d.next)).wbuf = outPage d := by
        unfold indexPage; rw [hok.spline]; rfl
      have hdone : HdrInv c K { indexPage c (outData c d) (some d.next) with wbuf := initPage c } := I.out e1 rfl
      by_cases hi : c.useIndex = true
      · rw [if_pos hi] at hy
        obtain ⟨⟨x2, ok⟩, hf, hy⟩ := Res.bind_eq_ok hy
        unfold idxFlush at hf
        obtain ⟨x3, _, hf⟩ := Res.bind_eq_ok hf
        rw [writeIdx_eq hok.io] at hf
        cases hf
        simp only [if_true] at hy
        cases hy
        exact hdone
      · rw [if_neg hi] at hy
        cases hy
        exact hdone
  | get k =>
    simp only [stepX] at e
    obtain ⟨⟨d1, r, out⟩, hy, e⟩ := Res.bind_eq_ok e
    cases e
    exact I.congr (get_same hy)
  | scan q =>
    simp only [stepX] at e
    obtain ⟨⟨d1, x1, rs⟩, hy, e⟩ := Res.bind_eq_ok e
    cases e
    exact I.congr (scanAll_same hy)

/-- C48 (`_partial`): for every history of inserts (in any key order), flushes, lookups and scans of a table whose header
fields do not overlap, the write buffer and every page that was written to the data file have correct statistics: the
four min/max fields are the smallest and largest key and data value of the records on the page, and the bitmap is the
fold of `updateBitmap` over its records.
Missing: the combinations with overlapping fields (`C48_false`; `Cfg.Layout` excludes those of `C22_false_maxMin`), and
bitmaps of more than 8 bytes do not start empty (`initBm_zero`, `C48_false_initial`). -/
theorem C48_header_stats_partial (c : Cfg) (K : Nat) (hok : c.Ok K) (hK : K ≤ 256 ^ c.keySize)
    (hb : c.useMaxMin = true → c.useBmap = true → c.bitmapSize ≤ 8)
    (hT : Spec.TotalOrder c.dataSize c.cmpData) (rb : Page) (sm : Nat → Nat × Nat) (x : Idx) (ops : List Op)
    (hp : ∀ k v, Op.put k v ∈ ops → k < K ∧ v.length = c.dataSize) (d : Data) (x' : Idx)
    (e : runOpsX c (Data.fresh c rb sm) x ops = .ok (d, x')) :
    HdrOk c d.wbuf ∧ ∀ ph p, Ev.write ph p ∈ d.dev.log → HdrOk c p := by
  have key : ∀ (ops : List Op) (d0 : Data) (x0 : Idx), HdrInv c K d0 →
      (∀ k v, Op.put k v ∈ ops → k < K ∧ v.length = c.dataSize) → runOpsX c d0 x0 ops = .ok (d, x') → HdrInv c K d := by
    intro ops
    induction ops with
    | nil => intro d0 x0 I _ e; unfold runOpsX at e; cases e; exact I
    | cons op ops ih =>
      intro d0 x0 I hp e
      unfold runOpsX at e
      obtain ⟨⟨d1, x1, o⟩, h1, e⟩ := Res.bind_eq_ok e
      exact ih d1 x1 (I.step hok hK hb hT (fun k v h => hp k v (by simp [h])) h1)
        (fun k v h => hp k v (by simp [h])) e
  have I0 : HdrInv c K (Data.fresh c rb sm) := by
    have hw : (Data.fresh c rb sm).wbuf = initPage c := rfl
    refine ⟨by rw [hw, count_init]; exact Nat.zero_le _, by rw [hw, recs_init]; simp, by rw [hw, recs_init]; simp,
      HdrOk.init c, by simp [Data.fresh]⟩
  have I := key ops _ _ I0 hp e
  exact ⟨I.buf, I.log⟩

end

/-! ## A concrete table with all header fields -/

/-- As `demo`, with min/max fields and an 8-byte bitmap: a header of 30 bytes and 4 records per page of 64 bytes. -/
def demoStats : Cfg := { demo with
  pageSize := 64, bitmapSize := 8, numIdx := 4, useIndex := true, useMaxMin := true, useBmap := true
  updBm := fun v b => (b.getD 0 0 ||| v.getD 0 0) :: b.tail, buildBm := fun _ _ => List.replicate 8 255 }

theorem demoStats_ok (K : Nat) : demoStats.Ok K where
  B0 := by decide
  dvd := by decide
  two := by decide
  page := by decide
  cap := by decide
  cap16 := by decide
  spl := by decide
  layout := ⟨by decide, by decide, fun v b (h : b.length = 8) => by
    show (_ :: b.tail).length = 8
    rw [List.length_cons, List.length_tail, h]⟩
  cmp := demo_cmp K
  plain := rfl
  spline := rfl
  io _ := rfl

theorem demoStats_total : Spec.TotalOrder demoStats.dataSize demoStats.cmpData where
  refl a _ := by show Spec.cmp3 _ _ = 0; unfold Spec.cmp3; split_ifs <;> omega
  flip a b _ _ := by
    show 0 < Spec.cmp3 _ _ ↔ Spec.cmp3 _ _ < 0
    unfold Spec.cmp3; split_ifs <;> omega
  trans a b d _ _ _ := by
    show Spec.cmp3 _ _ ≤ 0 → Spec.cmp3 _ _ ≤ 0 → Spec.cmp3 _ _ ≤ 0
    unfold Spec.cmp3; split_ifs <;> omega

/-- Keys out of order (5 and 4 are refused), data neither ascending nor descending, a flush. -/
def demoStatsOps : List Op :=
  [.put 3 (dat 9), .put 5 (dat 2), .put 5 (dat 1), .put 4 (dat 1), .put 7 (dat 64), .flush, .put 8 (dat 7), .put 9 (dat 8)]

/-- The hypotheses of `C48_header_stats_partial` are met by a history that ends normally with a page written, whose
header holds the values the theorem says. -/
example : demoStats.Ok 100 ∧ Spec.TotalOrder demoStats.dataSize demoStats.cmpData ∧
    (∀ k v, Op.put k v ∈ demoStatsOps → k < 100 ∧ v.length = demoStats.dataSize) ∧
    ∃ d x ph p, runOpsX demoStats (Data.fresh demoStats (fun _ => 0) (fun _ => (0, 0)))
        (Idx.fresh demoStats (fun _ => 0)) demoStatsOps = .ok (d, x) ∧ d.dev.log = [.write ph p] ∧
      recs demoStats p = [(3, dat 9), (5, dat 2), (7, dat 64)] ∧ leNat (hdrMinKey demoStats p) = 3 ∧
      leNat (hdrMaxKey demoStats p) = 7 ∧ hdrMinData demoStats p = dat 2 ∧ hdrMaxData demoStats p = dat 64 ∧
      hdrBm demoStats p = [75, 0, 0, 0, 0, 0, 0, 0] ∧ pageCount d.wbuf = 2 := by
  refine ⟨demoStats_ok _, demoStats_total, ?_, ?_⟩
  · intro k v h
    simp [demoStatsOps] at h
    rcases h with ⟨rfl, rfl⟩ | ⟨rfl, rfl⟩ | ⟨rfl, rfl⟩ | ⟨rfl, rfl⟩ | ⟨rfl, rfl⟩ | ⟨rfl, rfl⟩ | ⟨rfl, rfl⟩ <;>
      exact ⟨by decide, rfl⟩
  · have h : ((runOpsX demoStats (Data.fresh demoStats (fun _ => 0) (fun _ => (0, 0)))
        (Idx.fresh demoStats (fun _ => 0)) demoStatsOps).check fun (d, _) =>
          match d.dev.log with
          | [.write _ p] => decide (recs demoStats p = [(3, dat 9), (5, dat 2), (7, dat 64)] ∧
              leNat (hdrMinKey demoStats p) = 3 ∧ leNat (hdrMaxKey demoStats p) = 7 ∧ hdrMinData demoStats p = dat 2 ∧
              hdrMaxData demoStats p = dat 64 ∧ hdrBm demoStats p = [75, 0, 0, 0, 0, 0, 0, 0] ∧ pageCount d.wbuf = 2)
          | _ => false) = true := by decide +kernel
    obtain ⟨⟨d, x⟩, h1, h2⟩ := Res.check_ok h
    revert h2
    simp only
    split
    · rename_i ph p hl
      intro h2
      exact ⟨d, x, ph, p, h1, hl, of_decide_eq_true h2⟩
    · intro h2; cases h2

end EDB
