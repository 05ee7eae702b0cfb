import Verif.Proofs.Index
import Verif.Proofs.Reach
import Verif.Proofs.Always

/-! Helper lemmas: scans and histories of a table with a bitmap index. -/

namespace EDB

open Spec (Log Range Op Out)

/-- The query bitmap of an iterator is the one built from its data bounds. -/
def QbmOk (c : Cfg) (it : Iter) : Prop := ∀ qb, it.qbm = some qb → qb = c.buildBm it.minData it.maxData

section
variable {c : Cfg} {lo K a m : Nat} {L : Log}

theorem QbmOk.of {it it' : Iter} (h : QbmOk c it) (h1 : it'.range = it.range) (h2 : it'.qbm = it.qbm) : QbmOk c it' := by
  intro qb e
  rw [h2] at e
  have := h qb e
  unfold Iter.range at h1
  rw [Range.mk.injEq] at h1
  rw [this, h1.2.2.1, h1.2.2.2]

/-- A page without matching records may be skipped. -/
theorem NextOk.skip {it it' : Iter} {o : Option Rec} (hs : it.slot = 0) (hp : it.page < L.pages.length)
    (hno : ∀ r ∈ L.pages.getD it.page [], it.range.has c.cmpData r = false)
    (H : NextOk c L { it with page := it.page + 1 } it' o) : NextOk c L it it' o := by
  have hd : (L.pages ++ [L.buf]).drop it.page = L.pages[it.page] :: (L.pages ++ [L.buf]).drop (it.page + 1) := by
    rw [List.drop_eq_getElem_cons (by simp; omega), List.getElem_append_left hp]
  have hsplit := rest_cons hd it.slot
  rw [hs] at hsplit
  rw [getD_page hp] at hno
  have hpg := H.page
  have hrg := H.range
  refine ⟨hrg, H.qbm, by simp only at hpg; omega, ?_, ?_, H.pos⟩
  · intro r hor
    obtain ⟨pre, p1, p2, p3⟩ := H.found r hor
    simp only [hs] at p1
    refine ⟨L.pages[it.page].drop 0 ++ pre, ?_, p2, ?_⟩
    · rw [hs, hsplit, p1, List.append_assoc]
    · intro y hy
      rcases List.mem_append.mp hy with h | h
      · exact hno y h
      · exact p3 y h
  · intro hon
    obtain ⟨h1, h2⟩ := H.done hon
    simp only [hs] at h1 h2
    rw [hs, hsplit]
    constructor
    · intro y hy
      rcases List.mem_append.mp hy with h | h
      · exact hno y h
      · exact h1 y h
    · intro y hy
      exact List.mem_append_right _ (h2 y hy)

theorem nextLoop_idx (hx : c.IdxOk) (hB : 0 < c.B) (hc : CmpOk c.cmpKey K) (hN : 0 < c.N) :
    ∀ (f : Nat) (d : Data) (x : Idx) (it : Iter),
    Sim c lo K a d L → IdxInv c x L → KeysOk K it.range → QbmOk c it → d.min ≤ it.page → d.next + 1 < f + it.page →
    0 < f →
    ∃ d' x' it' out, nextLoop c f d x it = .ok (d', x', it', out) ∧ SameButCache d d' ∧ Sim c lo K a d' L ∧
      IdxInv c x' L ∧ NextOk c L it it' out := by
  intro f
  induction f with
  | zero => intro d x it _ _ _ _ _ _ h; omega
  | succ f ih =>
    intro d x it S I hq hb hmin hf _
    have hn := S.next
    have hlen : (L.pages ++ [L.buf]).length = d.next + 1 := by simp [hn]
    unfold nextLoop
    by_cases hgt : it.page > d.next
    · rw [if_pos hgt]
      have hnil : rest L it.page it.slot = [] := by
        unfold rest; rw [List.drop_eq_nil_of_le (by omega)]
      refine ⟨d, x, it, none, rfl, SameButCache.refl d, S, I, rfl, rfl, le_refl _, (by intro r h; cases h), ?_, (by intro r h; cases h)⟩
      intro _
      rw [hnil]
      exact ⟨by simp, by simp⟩
    · rw [if_neg hgt]
      obtain ⟨x1, sk, k1, k2, k3⟩ := I.skip hx hB hb
      rw [k1]
      simp only [Res.ok_bind]
      cases sk with
      | true =>
        obtain ⟨s1, s2, s3⟩ := k3 rfl
        simp only
        by_cases hf0 : f = 0
        · exfalso; omega
        · obtain ⟨d2, x2, it', o, q1, q2, q3, q4, q5⟩ := ih d x1 { it with page := it.page + 1 } S k2 hq hb
            (by simp only; omega) (by simp only; omega) (by omega)
          exact ⟨d2, x2, it', o, q1, q2, q3, q4, NextOk.skip s1 s2 s3 q5⟩
      | false =>
        simp only
        -- the page to examine
        have hpage : ∃ d1, (if it.page = d.next then (d, true) else readPage d (it.page % c.N)) = (d1, true) ∧
            SameButCache d d1 ∧ Sim c lo K a d1 L ∧
            ∃ t, (L.pages ++ [L.buf]).drop it.page =
              recs c (if it.page = d1.next then d1.wbuf else d1.rbuf) :: t ∧
              SortedPage c K (if it.page = d1.next then d1.wbuf else d1.rbuf) := by
          by_cases he : it.page = d.next
          · rw [if_pos he]
            refine ⟨d, rfl, SameButCache.refl d, S, [], ?_, ?_⟩
            · rw [if_pos he, S.buf, he, hn]; simp
            · rw [if_pos he]; exact S.sortedBuf
          · rw [if_neg he]
            obtain ⟨d1, r1, r2, r3, -, r5, -, -⟩ := S.readPage hN (l := it.page) hmin (by omega)
            have hlt : it.page < L.pages.length := by omega
            have hne : ¬ it.page = d1.next := by rw [r2.next]; exact he
            rw [getD_page hlt] at r5
            refine ⟨d1, r1, r2, r3, (L.pages ++ [L.buf]).drop (it.page + 1), ?_, ?_⟩
            · rw [if_neg hne, List.drop_eq_getElem_cons (by omega), r5, List.getElem_append_left hlt]
            · rw [if_neg hne]; exact S.sortedPage hlt r5
        obtain ⟨d1, p1, p2, p3, t, p4, p5⟩ := hpage
        rw [p1]
        simp only [if_true]
        obtain ⟨j, out, s1, s2, s3⟩ := page_step hc hq S.sorted p5 p4
        rw [s1]
        cases out with
        | some o =>
          simp only
          exact ⟨d1, x1, _, o, rfl, p2, p3, k2, s3 o rfl⟩
        | none =>
          simp only
          by_cases hf0 : f = 0
          · exfalso; omega
          · obtain ⟨d2, x2, it', o, q1, q2, q3, q4, q5⟩ := ih d1 x1 { it with page := it.page + 1, slot := 0 } p3 k2 hq hb
              (by rw [p2.min]; simp only; omega) (by rw [p2.next]; simp only; omega) (by omega)
            exact ⟨d2, x2, it', o, q1, p2.trans q2, q3, q4, s2 rfl _ _ q5⟩

theorem collect_idx (hx : c.IdxOk) (hB : 0 < c.B) (hc : CmpOk c.cmpKey K) (hN : 0 < c.N) :
    ∀ (f : Nat) (d : Data) (x : Idx) (it : Iter),
    Sim c lo K a d L → IdxInv c x L → KeysOk K it.range → QbmOk c it → d.min ≤ it.page →
    (rest L it.page it.slot).length < f →
    ∃ d' x' it', collect c f d x it = .ok (d', x', it', Spec.scan c.cmpData it.range (rest L it.page it.slot)) ∧
      SameButCache d d' ∧ Sim c lo K a d' L ∧ IdxInv c x' L := by
  intro f
  induction f with
  | zero => intro d x it _ _ _ _ _ h; omega
  | succ f ih =>
    intro d x it S I hq hb hmin hlen
    obtain ⟨d1, x1, it1, out, e1, e2, e3, eI, e4⟩ := nextLoop_idx hx hB hc hN (d.next + 1 - it.page + 1) d x it S I hq hb
      hmin (by omega) (by omega)
    unfold collect next
    rw [e1, Res.ok_bind]
    cases out with
    | none =>
      refine ⟨d1, x1, it1, ?_, e2, e3, eI⟩
      simp only
      unfold Spec.scan
      rw [List.filter_eq_nil_iff.mpr]
      intro y hy
      rw [(e4.done rfl).1 y hy]
      simp
    | some r =>
      obtain ⟨pre, p1, p2, p3⟩ := e4.found r rfl
      have hl : (rest L it1.page it1.slot).length < f := by
        rw [p1, List.length_append, List.length_cons] at hlen; omega
      obtain ⟨d2, x2, it2, g1, g2, g3, g4⟩ := ih d1 x1 it1 e3 eI (by rw [e4.range]; exact hq) (hb.of e4.range e4.qbm)
        (by rw [e2.min]; have := e4.page; omega) hl
      have hpre : pre.filter (it.range.has c.cmpData) = [] :=
        List.filter_eq_nil_iff.mpr (by intro y hy; rw [p3 y hy]; simp)
      refine ⟨d2, x2, it2, ?_, e2.trans g2, g3, g4⟩
      simp only
      rw [g1, Res.ok_bind]
      simp only
      rw [p1, e4.range]
      unfold Spec.scan
      rw [List.filter_append, hpre, List.nil_append, List.filter_cons_of_pos p2]

/-- `embedDBInitIterator` differs from its version without bitmaps only in the query bitmap. -/
theorem initIter_bmap (d : Data) (k1 k2 : Option Nat) (v1 v2 : Option (List Byte)) :
    initIter c d k1 k2 v1 v2 = (initIter { c with useBmap := false } d k1 k2 v1 v2) >>= fun it =>
      .ok { it with qbm := if c.useBmap && (v1.isSome || v2.isSome) then some (c.buildBm v1 v2) else none } := by
  unfold initIter
  simp only
  cases c.binSearch with
  | true => rfl
  | false =>
    simp only [Bool.false_eq_true, if_false]
    by_cases h : d.spl.count ≠ 0
    · rw [if_pos h, if_pos h]
      cases k1 with
      | none => rfl
      | some k =>
        simp only
        cases d.spl.find c.cmpKey k <;> rfl
    · rw [if_neg h, if_neg h]
      rfl

theorem initIter_idx (hc : CmpOk c.cmpKey K) {P : Nat} (hB : Bounds c lo K P) (hbs : c.binSearch = false)
    {d : Data} (S : Sim c lo K a d L) (hP : d.next ≤ P) {q : Range} (hq : KeysOk K q) :
    ∃ it, initIter c d q.minKey q.maxKey q.minData q.maxData = .ok it ∧ it.range = q ∧ QbmOk c it ∧ it.slot = 0 ∧
      d.min ≤ it.page ∧ it.page ≤ d.next ∧
      Spec.scan c.cmpData q (rest L it.page 0) = Spec.scan c.cmpData q (L.live d.min) := by
  have S' : Sim { c with useBmap := false } lo K a d L :=
    ⟨S.next, S.amin, S.minle, S.live, S.window, S.stored, S.buf, S.full, S.sorted, S.bound, S.spl, S.err, S.cacheN, S.cache⟩
  obtain ⟨it, i1, i2, i3, i4, i5, i6, i7⟩ := initIter_ok (c := { c with useBmap := false }) (lo := lo) hc
    ⟨hB.prod, hB.pages, hB.key⟩ hbs rfl S' hP hq
  rw [initIter_bmap, i1, Res.ok_bind]
  refine ⟨_, rfl, i2, ?_, i4, i5, i6, i7⟩
  intro qb h
  have e1 : it.minData = q.minData := by rw [← i2]; rfl
  have e2 : it.maxData = q.maxData := by rw [← i2]; rfl
  simp only at h ⊢
  split_ifs at h
  rw [e1, e2]
  exact (Option.some.inj h).symm

/-- A complete scan of a table with a bitmap index. -/
theorem scanAll_idx (hx : c.IdxOk) (hB0 : 0 < c.B) (hc : CmpOk c.cmpKey K) (hN : 0 < c.N) {P : Nat} (hB : Bounds c lo K P)
    (hbs : c.binSearch = false) {d : Data} {x : Idx} (S : Sim c lo K a d L) (I : IdxInv c x L) (hP : d.next ≤ P)
    (C : Capped c.maxRec L) {q : Range} (hq : KeysOk K q) :
    ∃ d' x', scanAll c d x q = .ok (d', x', Spec.scan c.cmpData q (L.live d.min)) ∧ SameButCache d d' ∧
      Sim c lo K a d' L ∧ IdxInv c x' L := by
  obtain ⟨it, i1, i2, i3, i4, i5, i6, i7⟩ := initIter_idx hc hB hbs S hP hq
  have hlen := rest_length C it.page
  rw [← S.next] at hlen
  obtain ⟨d', x', it', g1, g2, g3, g4⟩ := collect_idx hx hB0 hc hN ((d.next + 1) * c.maxRec + 1) d x it S I
    (by rw [i2]; exact hq) i3 i5 (by rw [i4]; omega)
  refine ⟨d', x', ?_, g2, g3, g4⟩
  unfold scanAll
  rw [i1, Res.ok_bind, g1, Res.ok_bind, i2, i4, i7]

/-! ### Scans change only the cache of the index -/

/-- The two states of the index differ at most in the read cache. -/
structure SameIdx (x x' : Idx) : Prop where
  dev : x'.dev = x.dev
  wbuf : x'.wbuf = x.wbuf
  next : x'.next = x.next
  min : x'.min = x.min
  avail : x'.avail = x.avail

theorem SameIdx.refl (x : Idx) : SameIdx x x := ⟨rfl, rfl, rfl, rfl, rfl⟩

theorem SameIdx.trans {x y z : Idx} (h : SameIdx x y) (g : SameIdx y z) : SameIdx x z :=
  ⟨g.dev.trans h.dev, g.wbuf.trans h.wbuf, g.next.trans h.next, g.min.trans h.min, g.avail.trans h.avail⟩

theorem readIdx_same (x : Idx) (ph : Nat) : SameIdx x (readIdx x ph).1 := by
  unfold readIdx
  split_ifs
  · exact SameIdx.refl x
  · cases x.dev.file ph <;> exact ⟨rfl, rfl, rfl, rfl, rfl⟩

theorem idxSkip_same {x x' : Idx} {it : Iter} {sk : Option Bool} (e : idxSkip c x it = .ok (x', sk)) : SameIdx x x' := by
  unfold idxSkip at e
  cases hq : it.qbm with
  | none => rw [hq] at e; cases e; exact SameIdx.refl x
  | some q =>
    rw [hq] at e
    simp only at e
    by_cases h1 : it.slot = 0
    · rw [if_pos h1] at e
      by_cases h2 : c.useIndex = false ∨ c.maxIdx = 0
      · rw [if_pos h2] at e; cases e
      · rw [if_neg h2] at e
        by_cases h3 : x.min ≤ it.page / c.maxIdx ∧ it.page / c.maxIdx < x.next
        · rw [if_pos h3] at e
          have hr := readIdx_same x (it.page / c.maxIdx % c.numIdx)
          split_ifs at e <;> (cases e; exact hr)
        · rw [if_neg h3] at e; cases e; exact SameIdx.refl x
    · rw [if_neg h1] at e; cases e; exact SameIdx.refl x

theorem nextLoop_sameIdx : ∀ (f : Nat) (d : Data) (x : Idx) (it : Iter) (d' : Data) (x' : Idx) (it' : Iter)
    (out : Option Rec), nextLoop c f d x it = .ok (d', x', it', out) → SameIdx x x' := by
  intro f
  induction f with
  | zero => intro d x it d' x' it' out e; simp [nextLoop] at e
  | succ f ih =>
    intro d x it d' x' it' out e
    unfold nextLoop at e
    by_cases h1 : it.page > d.next
    · rw [if_pos h1] at e
      cases e; exact SameIdx.refl x
    · rw [if_neg h1] at e
      obtain ⟨⟨x1, sk⟩, hsk, e⟩ := Res.bind_eq_ok e
      have s1 := idxSkip_same hsk
      cases sk with
      | none => cases e; exact s1
      | some sk =>
        cases sk with
        | true => exact s1.trans (ih _ _ _ _ _ _ _ e)
        | false =>
          simp only at e
          obtain ⟨d1, r, hr⟩ : ∃ d1 r, (if it.page = d.next then (d, true) else readPage d (it.page % c.N)) = (d1, r) :=
            ⟨_, _, rfl⟩
          rw [hr] at e
          simp only at e
          split_ifs at e
          all_goals first
            | (cases e; exact s1)
            | (split at e
               · exact s1.trans (ih _ _ _ _ _ _ _ e)
               · cases e; exact s1)

theorem collect_sameIdx : ∀ (f : Nat) (d : Data) (x : Idx) (it : Iter) (d' : Data) (x' : Idx) (it' : Iter)
    (out : List Rec), collect c f d x it = .ok (d', x', it', out) → SameIdx x x' := by
  intro f
  induction f with
  | zero => intro d x it d' x' it' out e; simp [collect] at e
  | succ f ih =>
    intro d x it d' x' it' out e
    unfold collect at e
    obtain ⟨⟨d1, x1, it1, o⟩, h1, e⟩ := Res.bind_eq_ok e
    have s1 := nextLoop_sameIdx _ _ _ _ _ _ _ _ h1
    cases o with
    | none => cases e; exact s1
    | some r =>
      obtain ⟨⟨d2, x2, it2, rs⟩, h2, e⟩ := Res.bind_eq_ok e
      cases e
      exact s1.trans (ih _ _ _ _ _ _ _ h2)

theorem scanAll_sameIdx {d d' : Data} {x x' : Idx} {q : Range} {rs : List Rec}
    (e : scanAll c d x q = .ok (d', x', rs)) : SameIdx x x' := by
  unfold scanAll at e
  obtain ⟨it, _, e⟩ := Res.bind_eq_ok e
  obtain ⟨⟨d2, x2, it2, rs2⟩, h2, e⟩ := Res.bind_eq_ok e
  cases e
  exact collect_sameIdx _ _ _ _ _ _ _ _ h2

theorem SameIdx.aligned {x x' : Idx} {n : Nat} (h : SameIdx x x') (g : Aligned c x n) : Aligned c x' n := by
  unfold Aligned at *
  rw [h.next, h.wbuf]
  exact g

/-! ### The operations -/

theorem orderCheck_sameButCache (d : Data) (key : Nat) : SameButCache d (orderCheck c d key).1 := by
  unfold orderCheck
  simp only
  split_ifs
  · exact readPage_same _ _
  · exact SameButCache.refl d
  · exact SameButCache.refl d

theorem hdrBm_outPage (d : Data) : hdrBm c (outPage d) = hdrBm c d.wbuf := by
  unfold hdrBm outPage
  exact rd_wr_disj _ _ _ _ _ (by rw [leBytes_length]; omega)

/-- `embedDBPut` is its data part plus its index part. -/
theorem putX_eq (hok : c.Ok K) (d : Data) (x : Idx) (key : Nat) (data : List Byte) (loc : Nat) :
    putX c d x key data loc = if (orderCheck c d key).2 then
        (if pageCount d.wbuf ≥ c.maxRec ∧ c.useIndex = true then idxPut c x (some d.next) (hdrBm c d.wbuf) else .ok x) >>=
          fun x' => .ok (accepted c (orderCheck c d key).1 key data loc, x', 0, decide (pageCount d.wbuf ≥ c.maxRec))
      else .ok ((orderCheck c d key).1, x, 1, false) := by
  have E := orderCheck_sameButCache (c := c) d key
  unfold putX
  obtain ⟨d1, b, h⟩ : ∃ d1 b, orderCheck c d key = (d1, b) := ⟨_, _, rfl⟩
  rw [h] at E ⊢
  simp only at E ⊢
  cases b with
  | false => simp
  | true =>
    simp only [if_true]
    unfold accepted
    rw [E.wbuf]
    by_cases hf : pageCount d.wbuf ≥ c.maxRec
    · rw [if_pos hf, writePage_eq hok.io hok.spline, Res.ok_bind]
      have e1 : (indexPage c (outData c d1) (some d1.next)).wbuf = outPage d1 := by
        unfold indexPage; rw [hok.spline]; rfl
      have e2 : ({ indexPage c (outData c d1) (some d1.next) with wbuf := initPage c } : Data) = sealed c d1 := by
        unfold indexPage; rw [hok.spline]; rfl
      have e3 : hdrBm c (outPage d1) = hdrBm c d.wbuf := by rw [hdrBm_outPage, E.wbuf]
      simp only [e1, e2, e3]
      rw [E.next]
      cases hi : c.useIndex with
      | true =>
        simp only [if_true, hf, and_self]
        cases idxPut c x (some d.next) (hdrBm c d.wbuf) <;> simp [finishPut, hok.plain, sealed]
      | false =>
        simp [finishPut, hok.plain, hf]
    · rw [if_neg hf, if_neg (fun h => hf h.1)]
      simp [finishPut, hok.plain, hf, E.wbuf]

/-- `embedDBFlush` is its data part plus its index part. -/
theorem flushX_eq (hok : c.Ok K) (hi : c.useIndex = true) (d : Data) (x : Idx) :
    flushX c d x = if pageCount d.wbuf < 1 then .ok (d, x, 0, false) else
      idxFlush c x (hdrBm c d.wbuf) >>= fun xo =>
        if xo.2 then .ok (sealed c d, xo.1, 0, true)
        else .ok (indexPage c (outData c d) (some d.next), xo.1, -1, true) := by
  unfold flushX
  split_ifs with h
  · rfl
  · rw [writePage_eq hok.io hok.spline, Res.ok_bind]
    have e1 : (indexPage c (outData c d) (some d.next)).wbuf = outPage d := by
      unfold indexPage; rw [hok.spline]; rfl
    have e2 : ({ indexPage c (outData c d) (some d.next) with wbuf := initPage c } : Data) = sealed c d := by
      unfold indexPage; rw [hok.spline]; rfl
    simp only [e1, e2, hdrBm_outPage]

/-- A table together with its index represents a log. -/
structure TableX (c : Cfg) (lo K m : Nat) (d : Data) (x : Idx) (L : Log) : Prop where
  table : TableM c lo K m d L
  idx : IdxInv c x L
  hdr : Covers c (hdrBm c d.wbuf) L.buf

/-- No page is overwritten while it sits in a read cache, and a flush completes the index page. -/
def SafeOp (c : Cfg) (d : Data) (x : Idx) : Op → Prop
  | .put _ _ => pageCount d.wbuf ≥ c.maxRec → d.buffered ≠ some (d.next % c.N) ∧
      (pageCount x.wbuf ≥ c.maxIdx → x.buffered ≠ some (x.next % c.numIdx))
  | .flush => pageCount d.wbuf ≠ 0 → d.buffered ≠ some (d.next % c.N) ∧ x.buffered ≠ some (x.next % c.numIdx) ∧
      pageCount x.wbuf + 1 = c.maxIdx
  | _ => True

/-- The operation writes a page of the index file. -/
def WritesIdx (c : Cfg) (d : Data) (x : Idx) : Op → Prop
  | .put _ _ => pageCount d.wbuf ≥ c.maxRec ∧ pageCount x.wbuf ≥ c.maxIdx
  | .flush => pageCount d.wbuf ≠ 0
  | _ => False

theorem TableX.put {d : Data} {x : Idx} (hok : c.Ok K) (hx : c.IdxOk) (hs : m = 0 ∨ c.maxErr ≤ 1) {P : Nat}
    (hB : Bounds c lo K P) (T : TableX c lo K m d x L) (hP : d.next + 1 ≤ P) {key : Nat} {data : List Byte}
    (hd : data.length = c.dataSize) (hlo : lo ≤ key) (hk : key < K) (hgt : ∀ r ∈ L.all, r.1 < key)
    (hsafe : SafeOp c d x (.put key data)) (hal : WritesIdx c d x (.put key data) → Aligned c x d.next) :
    ∃ d' x', (stepX c d x (.put key data) = .ok (d', x', .code 0) ∧ TableX c lo K m d' x' (L.put c.maxRec (key, data)) ∧
        (Aligned c x d.next → Aligned c x' d'.next)) ∨
      (stepX c d x (.put key data) = .ok (d', x', .code 1) ∧ TableX c lo K m d' x' L ∧ SameButCache d d' ∧ x' = x ∧
        Spec.MayRefuse c.maxRec L) := by
  have hcount : pageCount d.wbuf = L.buf.length := by rw [← T.table.sim.buf, recs_length]
  have E := orderCheck_sameButCache (c := c) d key
  obtain ⟨d', h⟩ := T.table.put hok hs hB hP x hd hlo hk hgt (by
    intro h; exact (hsafe (by omega)).1)
  simp only [step] at h
  rw [putD_eq hok] at h
  simp only [stepX]
  rw [putX_eq hok]
  cases ho : (orderCheck c d key).2 with
  | false =>
    rw [ho] at h
    simp only [Bool.false_eq_true, if_false, Res.ok_bind] at h ⊢
    rcases h with ⟨h, -⟩ | ⟨h, T', E', hr⟩
    · simp at h
    · simp only [Res.ok.injEq, Prod.mk.injEq] at h
      refine ⟨d', x, Or.inr ⟨by rw [h.1], ⟨T', T.idx, ?_⟩, E', rfl, hr⟩⟩
      rw [E'.wbuf]; exact T.hdr
  | true =>
    rw [ho] at h
    simp only [if_true, Res.ok_bind] at h ⊢
    rcases h with ⟨h, T'⟩ | ⟨h, -⟩
    · simp only [Res.ok.injEq, Prod.mk.injEq] at h
      have hw : (accepted c (orderCheck c d key).1 key data 0).wbuf =
          appendRec c (if pageCount d.wbuf ≥ c.maxRec then initPage c else d.wbuf) key data 0 := by
        unfold accepted
        rw [E.wbuf]
        simp only
        split_ifs
        · rfl
        · rw [E.wbuf]
      by_cases hf : pageCount d.wbuf ≥ c.maxRec
      · rw [if_pos ⟨hf, hx.index⟩]
        have hn : d.next = L.pages.length := T.table.sim.next
        obtain ⟨x', i1, i2, i3⟩ := T.idx.put hx hok.io hok.B0 (some d.next) (hsafe hf).2 (fun h => hn ▸ hal ⟨hf, h⟩)
          (hdrBm_length c d.wbuf) T.hdr [(key, data)]
        rw [i1]
        simp only [Res.ok_bind]
        refine ⟨d', x', Or.inl ⟨by rw [h.1], ⟨T', ?_, ?_⟩, ?_⟩⟩
        rotate_right
        · intro ha
          have hn' : d'.next = _ := T'.sim.next
          rw [hn', hn] at *
          have e : (L.put c.maxRec (key, data)).pages.length = L.pages.length + 1 := by
            unfold Log.put; rw [if_pos (by omega)]; simp
          rw [e]
          exact i3 ha
        · unfold Log.put; rw [if_pos (by omega)]; exact i2
        · rw [← h.1, hw, if_pos hf]
          unfold Log.put; rw [if_pos (by omega)]
          exact (Covers.nil c).append hx key 0 hd
      · rw [if_neg (fun h => hf h.1)]
        simp only [Res.ok_bind]
        refine ⟨d', x, Or.inl ⟨by rw [h.1], ⟨T', ?_, ?_⟩, ?_⟩⟩
        rotate_right
        · intro ha
          have hn : d.next = L.pages.length := T.table.sim.next
          have hn' : d'.next = _ := T'.sim.next
          have e : (L.put c.maxRec (key, data)).pages.length = L.pages.length := by
            unfold Log.put; rw [if_neg (by omega)]
          rw [hn', e, ← hn]
          exact ha
        · unfold Log.put; rw [if_neg (by omega)]; exact T.idx.congr rfl
        · rw [← h.1, hw, if_neg hf]
          unfold Log.put; rw [if_neg (by omega)]
          exact T.hdr.append hx key 0 hd
    · simp at h

theorem TableX.flush {d : Data} {x : Idx} (hok : c.Ok K) (hx : c.IdxOk) (hs : m = 0 ∨ c.maxErr ≤ 1) {P : Nat}
    (hB : Bounds c lo K P) (T : TableX c lo K m d x L) (hP : d.next + 1 ≤ P) (hsafe : SafeOp c d x .flush)
    (hal : WritesIdx c d x .flush → Aligned c x d.next) :
    ∃ d' x', stepX c d x .flush = .ok (d', x', .code 0) ∧ TableX c lo K m d' x' L.flush ∧
      (Aligned c x d.next → Aligned c x' d'.next) := by
  have hcount : pageCount d.wbuf = L.buf.length := by rw [← T.table.sim.buf, recs_length]
  have hne : L.buf ≠ [] → pageCount d.wbuf ≠ 0 := by
    intro h h0
    rw [hcount] at h0
    exact h (List.length_eq_zero_iff.mp h0)
  obtain ⟨d', h, T'⟩ := T.table.flush hok hs hB hP x (fun h => (hsafe (hne h)).1)
  simp only [step] at h
  rw [flushD_eq hok.io hok.spline] at h
  simp only [stepX]
  rw [flushX_eq hok hx.index]
  by_cases h1 : pageCount d.wbuf < 1
  · rw [if_pos h1] at h ⊢
    simp only [Res.ok_bind, Res.ok.injEq, Prod.mk.injEq, and_true] at h ⊢
    have hb : L.buf = [] := List.length_eq_zero_iff.mp (by omega)
    have e : L.flush = L := by unfold Log.flush; rw [if_pos hb]
    rw [e]
    exact ⟨d, x, ⟨rfl, rfl⟩, T, fun h => h⟩
  · rw [if_neg h1] at h ⊢
    simp only [Res.ok_bind, Res.ok.injEq, Prod.mk.injEq, and_true] at h
    obtain ⟨s1, s2, s3⟩ := hsafe (by omega)
    have hn : d.next = L.pages.length := T.table.sim.next
    obtain ⟨x', i1, i2, i3⟩ := T.idx.flush hx hok.io hok.B0 s3 (hn ▸ hal (show pageCount d.wbuf ≠ 0 by omega)) s2
      (hdrBm_length c d.wbuf) T.hdr []
    rw [i1]
    simp only [Res.ok_bind, if_true]
    have hb : L.buf ≠ [] := by intro hb; rw [hb] at hcount; simp at hcount; omega
    refine ⟨d', x', by rw [h], ⟨T', ?_, ?_⟩, ?_⟩
    rotate_right
    · intro _
      have hn' : d'.next = _ := T'.sim.next
      have e : L.flush.pages.length = L.pages.length + 1 := by unfold Log.flush; rw [if_neg hb]; simp
      rw [hn', e]
      exact i3
    · unfold Log.flush; rw [if_neg hb]; exact i2
    · unfold Log.flush; rw [if_neg hb, ← h]; exact Covers.nil _

theorem TableX.get {d : Data} {x : Idx} (hok : c.Ok K) {P : Nat} (hB : Bounds c lo K P) (T : TableX c lo K m d x L)
    (hP : d.next ≤ P) (h255 : c.maxRec ≤ 255) {key : Nat} (hk : key < K) :
    ∃ d', stepX c d x (.get key) = .ok (d', x, Spec.answer (L.live d.min) key) ∧ TableX c lo K m d' x L ∧ d'.next = d.next := by
  obtain ⟨d', code, out, h1, h2, h3, h4⟩ := get_ok hok.cmp hok.N0 hB hok.spline hk T.table.sim hP (by
    intro i hi
    have := T.table.cap.2
    omega)
  refine ⟨d', ?_, ⟨T.table.congr h2 h3, T.idx, by rw [h2.wbuf]; exact T.hdr⟩, h2.next⟩
  rw [← answer_of h4]
  simp only [stepX]; rw [h1, Res.ok_bind]

theorem TableX.scan {d : Data} {x : Idx} (hok : c.Ok K) (hx : c.IdxOk) {P : Nat} (hB : Bounds c lo K P)
    (T : TableX c lo K m d x L) (hP : d.next ≤ P) {q : Range} (hq : KeysOk K q) :
    ∃ d' x', stepX c d x (.scan q) = .ok (d', x', .rows (Spec.scan c.cmpData q (L.live d.min))) ∧
      TableX c lo K m d' x' L ∧ d'.next = d.next ∧ SameIdx x x' := by
  obtain ⟨d', x', h1, h2, h3, h4⟩ := scanAll_idx hx hok.B0 hok.cmp hok.N0 hB hok.spline T.table.sim T.idx hP T.table.cap hq
  refine ⟨d', x', ?_, ⟨T.table.congr h2 h3, h4, by rw [h2.wbuf]; exact T.hdr⟩, h2.next, scanAll_sameIdx h1⟩
  simp only [stepX]; rw [h1, Res.ok_bind]

/-! ### Histories -/

/-- Keys offered in ascending order, keys and data of the right size, bounds within the comparator's domain. -/
structure ClientX (c : Cfg) (lo K : Nat) (ops : List Op) : Prop where
  asc : (Spec.offered ops).Pairwise (· < ·)
  put : ∀ k v, Op.put k v ∈ ops → lo ≤ k ∧ k < K ∧ v.length = c.dataSize
  get : ∀ k, Op.get k ∈ ops → k < K
  scan : ∀ q, Op.scan q ∈ ops → KeysOk K q

theorem ClientX.tail {op : Op} {ops : List Op} (h : ClientX c lo K (op :: ops)) : ClientX c lo K ops where
  asc := by
    have := h.asc
    cases op with
    | put k v => exact (List.pairwise_cons.mp this).2
    | flush => exact this
    | get k => exact this
    | scan q => exact this
  put k v hm := h.put k v (List.mem_cons_of_mem _ hm)
  get k hm := h.get k (List.mem_cons_of_mem _ hm)
  scan q hm := h.scan q (List.mem_cons_of_mem _ hm)

/-- Every history in which each operation is safe. -/
theorem historyX_ok (hok : c.Ok K) (hx : c.IdxOk) (hs : m = 0 ∨ c.maxErr ≤ 1) (hm : c.B ∣ m) {P : Nat}
    (hB : Bounds c lo K P) (h255 : c.maxRec ≤ 255) {limit : Log → Prop} {kept : Log → List Rec}
    (hkept : ∀ l, limit l → kept l = l.live (max m (Spec.dropped c.N c.B l.pages.length)))
    {G : Data → Idx → List Op → Prop}
    (hG : ∀ d L x op ops, G d x (op :: ops) → TableX c lo K m d x L → limit (after c.maxRec L op) → SafeOp c d x op)
    (hG' : ∀ d L x op ops d' x' o, G d x (op :: ops) → TableX c lo K m d x L → ClientX c lo K (op :: ops) →
      stepX c d x op = .ok (d', x', o) → G d' x' ops) :
    ∀ (ops : List Op) (d : Data) (x : Idx) (L : Log), TableX c lo K m d x L → Aligned c x d.next → limit L → d.next + ops.length ≤ P →
      ClientX c lo K ops → (∀ r ∈ L.all, ∀ k ∈ Spec.offered ops, r.1 < k) → G d x ops →
      Spec.Run limit kept c.maxRec c.cmpData L (historyX c d x ops) := by
  intro ops
  induction ops with
  | nil => intro d x L _ _ _ _ _ _ _; exact trivial
  | cons op ops ih =>
    intro d x L T hal hlim hP C hgt g
    rw [List.length_cons] at hP
    have hnext := T.table.sim.next
    cases op with
    | put k v =>
      obtain ⟨h1, h2, h3⟩ := C.put k v (by simp)
      have hgt' : ∀ r ∈ L.all, r.1 < k := fun r hr => hgt r hr k (by simp [Spec.offered])
      have hasc := List.pairwise_cons.mp C.asc
      unfold historyX
      by_cases hl : limit (L.put c.maxRec (k, v))
      · obtain ⟨d', x', ⟨e, T', A'⟩ | ⟨e, T', E, ex, hr⟩⟩ := T.put hok hx hs hB (by omega) h3 h1 h2 hgt' (hG d L x _ _ g T hl) (fun _ => hal)
        · simp only [e]
          intro _
          left
          refine ⟨rfl, ih d' x' _ T' (A' hal) hl ?_ C.tail ?_ (hG' _ _ _ _ _ _ _ _ g T C e)⟩
          · have := Log_put_pages (L := L) c.maxRec (k, v)
            have := T'.table.sim.next
            omega
          · intro r hr k' hk'
            rw [Log_put_all] at hr
            rcases List.mem_append.mp hr with h | h
            · exact hgt r h k' (by simp [Spec.offered, hk'])
            · rw [List.mem_singleton.mp h]; exact hasc.1 k' hk'
        · simp only [e]
          intro _
          right
          refine ⟨rfl, hr, ih d' x' _ T' (by rw [ex, E.next]; exact hal) hlim ?_ C.tail ?_ (hG' _ _ _ _ _ _ _ _ g T C e)⟩
          · rw [E.next]; omega
          · intro r hr k' hk'
            exact hgt r hr k' (by simp [Spec.offered, hk'])
      · cases stepX c d x (Op.put k v) <;> exact fun h => absurd h hl
    | flush =>
      unfold historyX
      by_cases hl : limit L.flush
      · obtain ⟨d', x', e, T', A'⟩ := T.flush hok hx hs hB (by omega) (hG d L x _ _ g T hl) (fun _ => hal)
        simp only [e]
        intro _
        refine ⟨rfl, ih d' x' _ T' (A' hal) hl ?_ C.tail ?_ (hG' _ _ _ _ _ _ _ _ g T C e)⟩
        · have := Log_flush_pages (L := L)
          have := T'.table.sim.next
          omega
        · intro r hr k' hk'
          rw [Log_flush_all] at hr
          exact hgt r hr k' hk'
      · cases stepX c d x Op.flush <;> exact fun h => absurd h hl
    | get k =>
      have hk := C.get k (by simp)
      obtain ⟨d', e, T', en⟩ := T.get hok hB (by omega) h255 hk
      unfold historyX
      simp only [e]
      refine ⟨by rw [hkept L hlim, T.table.dropped_max hok.B0 hm],
        ih d' x _ T' (by rw [en]; exact hal) hlim ?_ C.tail hgt (hG' _ _ _ _ _ _ _ _ g T C e)⟩
      have := T'.table.sim.next
      omega
    | scan q =>
      obtain ⟨d', x', e, T', en, es⟩ := T.scan hok hx hB (by omega) (C.scan q (by simp))
      unfold historyX
      simp only [e]
      refine ⟨by rw [hkept L hlim, T.table.dropped_max hok.B0 hm],
        ih d' x' _ T' (by rw [en]; exact es.aligned hal) hlim ?_ C.tail hgt (hG' _ _ _ _ _ _ _ _ g T C e)⟩
      have := T'.table.sim.next
      omega

/-- Along the run every operation is safe. -/
def SafeX (c : Cfg) : Data → Idx → List Op → Prop
  | _, _, [] => True
  | d, x, op :: ops => SafeOp c d x op ∧ ∀ d' x' o, stepX c d x op = .ok (d', x', o) → SafeX c d' x' ops

/-- The state reached by a safe history represents the log the observations describe. -/
theorem runOpsX_ok (hok : c.Ok K) (hx : c.IdxOk) (hs : m = 0 ∨ c.maxErr ≤ 1) {P : Nat}
    (hB : Bounds c lo K P) (h255 : c.maxRec ≤ 255) :
    ∀ (ops : List Op) (d : Data) (x : Idx) (L : Log), TableX c lo K m d x L → Aligned c x d.next →
      d.next + ops.length ≤ P → ClientX c lo K ops → (∀ r ∈ L.all, ∀ k ∈ Spec.offered ops, r.1 < k) → SafeX c d x ops →
      ∃ d' x', runOpsX c d x ops = .ok (d', x') ∧
        TableX c lo K m d' x' (Spec.logAfter c.maxRec L (historyX c d x ops)) ∧ d'.next ≤ d.next + ops.length ∧
        Aligned c x' d'.next := by
  intro ops
  induction ops with
  | nil => intro d x L T h _ _ _ _; exact ⟨d, x, rfl, T, le_refl _, h⟩
  | cons op ops ih =>
    intro d x L T hal hP C hgt g
    rw [List.length_cons] at hP
    have hnext := T.table.sim.next
    cases op with
    | put k v =>
      obtain ⟨h1, h2, h3⟩ := C.put k v (by simp)
      have hgt' : ∀ r ∈ L.all, r.1 < k := fun r hr => hgt r hr k (by simp [Spec.offered])
      have hasc := List.pairwise_cons.mp C.asc
      unfold historyX runOpsX
      obtain ⟨d', x', ⟨e, T', A'⟩ | ⟨e, T', E, ex, hr⟩⟩ := T.put hok hx hs hB (by omega) h3 h1 h2 hgt' g.1 (fun _ => hal)
      · have := Log_put_pages (L := L) c.maxRec (k, v)
        have := T'.table.sim.next
        obtain ⟨d2, x2, f1, f2, f3, f4⟩ := ih d' x' _ T' (A' hal) (by omega) C.tail (by
          intro r hr k' hk'
          rw [Log_put_all] at hr
          rcases List.mem_append.mp hr with h | h
          · exact hgt r h k' (by simp [Spec.offered, hk'])
          · rw [List.mem_singleton.mp h]; exact hasc.1 k' hk') (g.2 _ _ _ e)
        simp only [e, Res.ok_bind, Spec.logAfter, List.length_cons]
        exact ⟨d2, x2, f1, f2, by omega, f4⟩
      · have hn := E.next
        obtain ⟨d2, x2, f1, f2, f3, f4⟩ := ih d' x' _ T' (by rw [ex, E.next]; exact hal) (by omega) C.tail (by
          intro r hr k' hk'
          exact hgt r hr k' (by simp [Spec.offered, hk'])) (g.2 _ _ _ e)
        simp only [e, Res.ok_bind, List.length_cons]
        refine ⟨d2, x2, f1, ?_, by omega, f4⟩
        simpa [Spec.logAfter] using f2
    | flush =>
      unfold historyX runOpsX
      obtain ⟨d', x', e, T', A'⟩ := T.flush hok hx hs hB (by omega) g.1 (fun _ => hal)
      have := Log_flush_pages (L := L)
      have := T'.table.sim.next
      obtain ⟨d2, x2, f1, f2, f3, f4⟩ := ih d' x' _ T' (A' hal) (by omega) C.tail (by
        intro r hr k' hk'
        rw [Log_flush_all] at hr
        exact hgt r hr k' hk') (g.2 _ _ _ e)
      simp only [e, Res.ok_bind, Spec.logAfter, List.length_cons]
      exact ⟨d2, x2, f1, f2, by omega, f4⟩
    | get k =>
      have hk := C.get k (by simp)
      obtain ⟨d', e, T', en⟩ := T.get hok hB (by omega) h255 hk
      have := T'.table.sim.next
      obtain ⟨d2, x2, f1, f2, f3, f4⟩ := ih d' x _ T' (by rw [en]; exact hal) (by omega) C.tail hgt (g.2 _ _ _ e)
      unfold historyX runOpsX
      simp only [e, Res.ok_bind, Spec.logAfter, List.length_cons]
      exact ⟨d2, x2, f1, f2, by omega, f4⟩
    | scan q =>
      obtain ⟨d', x', e, T', en, es⟩ := T.scan hok hx hB (by omega) (C.scan q (by simp))
      have := T'.table.sim.next
      obtain ⟨d2, x2, f1, f2, f3, f4⟩ := ih d' x' _ T' (by rw [en]; exact es.aligned hal) (by omega) C.tail hgt (g.2 _ _ _ e)
      unfold historyX runOpsX
      simp only [e, Res.ok_bind, Spec.logAfter, List.length_cons]
      exact ⟨d2, x2, f1, f2, by omega, f4⟩

theorem fresh_tableX (hok : c.Ok K) (rb rb' : Page) (sm : Nat → Nat × Nat) :
    TableX c lo K 0 (Data.fresh c rb sm) (Idx.fresh c rb') Log.empty :=
  ⟨fresh_table hok rb sm, IdxInv.fresh c rb', Covers.nil _⟩

theorem fresh_aligned (c : Cfg) (rb rb' : Page) (sm : Nat → Nat × Nat) :
    Aligned c (Idx.fresh c rb') (Data.fresh c rb sm).next := by
  have := (IdxInv.fresh c rb').pages
  unfold Aligned
  simp only [Log.empty, List.length_nil, Nat.le_zero] at this
  rw [this]
  rfl

/-- Inserts, then reads, with empty caches as long as pages may be completed. -/
def PhasedX (d : Data) (x : Idx) (ops : List Op) : Prop :=
  ∃ ps rs, ops = ps ++ rs ∧ (∀ op ∈ ps, op.isPut) ∧ (∀ op ∈ rs, op.isRead) ∧
    (ps ≠ [] → d.buffered = none ∧ x.buffered = none ∧ (pageCount d.wbuf ≠ 0 ∨ d.next = 0))

theorem idxPut_buffered {x x' : Idx} {pn : Option Nat} {bm : List Byte} (hio : ∀ n, c.ioOk n = true)
    (h : idxPut c x pn bm = .ok x') : x'.buffered = x.buffered := by
  unfold idxPut idxAppend at h
  rw [writeIdx_eq hio] at h
  simp only at h
  split_ifs at h <;> (try cases h) <;> rfl

theorem PhasedX.safe (hok : c.Ok K) : ∀ (ops : List Op) (d : Data) (x : Idx), PhasedX d x ops → ClientX c lo K ops →
    SafeX c d x ops := by
  intro ops
  induction ops with
  | nil => intro d x _ _; exact trivial
  | cons op ops ih =>
    rintro d x ⟨ps, rs, e, h1, h2, h3⟩ C
    rcases ps with _ | ⟨p, ps⟩
    · rw [List.nil_append] at e
      have hr := h2 op (by rw [← e]; simp)
      refine ⟨by cases op <;> simp [Op.isRead, SafeOp] at hr ⊢, ?_⟩
      intro d' x' o _
      refine ih d' x' ⟨[], ops, rfl, by simp, ?_, by simp⟩ C.tail
      intro op' h'
      exact h2 op' (by rw [← e]; simp [h'])
    · rw [List.cons_append, List.cons.injEq] at e
      have hp := h1 p (by simp)
      rw [← e.1] at hp
      obtain ⟨hb, hxb, hw⟩ := h3 (by simp)
      cases op with
      | flush => simp [Op.isPut] at hp
      | get k => simp [Op.isPut] at hp
      | scan q => simp [Op.isPut] at hp
      | put k v =>
        obtain ⟨_, _, hd⟩ := C.put k v (by simp)
        refine ⟨fun _ => ⟨by rw [hb]; simp, fun _ => by rw [hxb]; simp⟩, ?_⟩
        intro d' x' o hs
        refine ih d' x' ⟨ps, rs, e.2, fun op h => h1 op (by simp [h]), h2, fun _ => ?_⟩ C.tail
        simp only [stepX] at hs
        rw [putX_eq hok, orderCheck_noread d k hw] at hs
        by_cases ho : (orderCheck c d k).2 = true
        · rw [if_pos ho] at hs
          obtain ⟨y, hy, hs⟩ := Res.bind_eq_ok hs
          obtain ⟨x1, hx1, hy⟩ := Res.bind_eq_ok hy
          cases hy
          simp only [Res.ok.injEq, Prod.mk.injEq] at hs
          obtain ⟨rfl, rfl, _⟩ := hs
          refine ⟨by rw [accepted_buffered]; exact hb, ?_, ?_⟩
          · split_ifs at hx1
            · rw [idxPut_buffered hok.io hx1]; exact hxb
            · cases hx1; exact hxb
          · left; rw [accepted_count hok _ _ _ _ hd]; split_ifs <;> omega
        · rw [if_neg ho] at hs
          simp only [Res.ok_bind, Res.ok.injEq, Prod.mk.injEq] at hs
          obtain ⟨rfl, rfl, _⟩ := hs
          exact ⟨hb, hxb, hw⟩

/-- While the data pages and the index pages fit into their files, no cached page is overwritten. -/
theorem unwrappedX_safe (hok : c.Ok K) (hx : c.IdxOk) {d : Data} {x : Idx} {op : Op} (T : TableX c lo K 0 d x L)
    (hf : op ≠ .flush) (hl : (after c.maxRec L op).pages.length ≤ c.N)
    (hl' : (after c.maxRec L op).pages.length ≤ c.numIdx * c.maxIdx) : SafeOp c d x op := by
  have hcount : pageCount d.wbuf = L.buf.length := by rw [← T.table.sim.buf, recs_length]
  cases op with
  | get k => exact trivial
  | scan q => exact trivial
  | flush => exact absurd rfl hf
  | put k v =>
    intro hfull
    refine ⟨unwrapped_safe hok T.table (op := .put k v) hfull hl, ?_⟩
    intro hi hb
    simp only [after, Log.put] at hl'
    rw [if_pos (by omega), List.length_append, List.length_singleton] at hl'
    have hp := T.idx.pages
    have hcap := hx.cap
    have hlt : x.next < c.numIdx := by
      by_contra hcon
      have := Nat.mul_le_mul_right c.maxIdx (show c.numIdx ≤ x.next by omega)
      omega
    have := T.idx.cacheN _ hb
    rw [Nat.mod_eq_of_lt hlt] at this
    omega

end

end EDB
