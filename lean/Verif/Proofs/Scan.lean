import Verif.Proofs.Write
import Verif.Model.Iter
import Verif.Spec.Scan

/-! Helper lemmas: the iterator on a state that represents a log. -/

namespace EDB

open Spec (Log Range)

/-- The bounds stored in an iterator. -/
def Iter.range (it : Iter) : Range := ⟨it.minKey, it.maxKey, it.minData, it.maxData⟩

/-- Key bounds of the iterator are keys the comparator handles. -/
structure KeysOk (K : Nat) (q : Range) : Prop where
  min : ∀ k, q.minKey = some k → k < K
  max : ∀ k, q.maxKey = some k → k < K

/-- The records from slot `slot` of page `pg` on (the write buffer is the page after the last stored one). -/
def rest (L : Log) (pg slot : Nat) : List Rec :=
  match (L.pages ++ [L.buf]).drop pg with
  | [] => []
  | p :: t => p.drop slot ++ t.flatten

theorem rest_zero (L : Log) (pg : Nat) : rest L pg 0 = ((L.pages ++ [L.buf]).drop pg).flatten := by
  unfold rest
  cases (L.pages ++ [L.buf]).drop pg with
  | nil => rfl
  | cons p t => simp

theorem rest_cons {L : Log} {pg : Nat} {p : List Rec} {t : List (List Rec)} (h : (L.pages ++ [L.buf]).drop pg = p :: t)
    (slot : Nat) : rest L pg slot = p.drop slot ++ rest L (pg + 1) 0 := by
  rw [rest_zero]
  unfold rest
  rw [h, ← List.drop_drop, h]
  rfl

theorem all_eq (L : Log) : L.all = (L.pages ++ [L.buf]).flatten := by
  unfold Log.all; simp

theorem rest_all (L : Log) (m : Nat) (hm : m ≤ L.pages.length) : rest L m 0 = L.live m := by
  rw [rest_zero]
  unfold Log.live
  rw [List.drop_append_of_le_length hm]
  simp

/-! ### One page -/

section
variable {c : Cfg} {K : Nat}

theorem drop_recs {p : Page} {i : Nat} (h : i < pageCount p) :
    (recs c p).drop i = (slotKey c p i, slotData c p i) :: (recs c p).drop (i + 1) := by
  rw [List.drop_eq_getElem_cons (by rw [recs_length]; exact h), recs_getElem]

/-- The tests of the code are the tests of the specification. -/
theorem tests (hc : CmpOk c.cmpKey K) {it : Iter} (hq : KeysOk K it.range) {k : Nat} (hk : k < K) (v : List Byte) :
    (it.minKey.any (fun b => c.cmpKey k b < 0) = true ↔ ∃ b, it.minKey = some b ∧ k < b) ∧
    (it.maxKey.any (fun b => c.cmpKey k b > 0) = true ↔ ∃ b, it.maxKey = some b ∧ b < k) ∧
    (it.range.has c.cmpData (k, v) = true ↔ ¬ (∃ b, it.minKey = some b ∧ k < b) ∧ ¬ (∃ b, it.maxKey = some b ∧ b < k) ∧
      ¬ it.minData.any (fun b => c.cmpData v b < 0) = true ∧ ¬ it.maxData.any (fun b => c.cmpData v b > 0) = true) := by
  have h1 := hq.min
  have h2 := hq.max
  obtain ⟨pg, sl, mnk, mxk, mnd, mxd, qb⟩ := it
  simp only [Iter.range] at h1 h2
  refine ⟨?_, ?_, ?_⟩
  · cases mnk with
    | none => simp
    | some b => simp [hc.lt k b hk (h1 b rfl)]
  · cases mxk with
    | none => simp
    | some b => simp [hc.pos hk (h2 b rfl)]
  · unfold Range.has Iter.range
    cases mnk <;> cases mxk <;> cases mnd <;> cases mxd <;> simp [and_assoc]

theorem recLoop_ok (hc : CmpOk c.cmpKey K) {it : Iter} (hq : KeysOk K it.range) {p : Page} (hs : SortedPage c K p) :
    ∀ f i, f = pageCount p - i → ∃ j out, recLoop c it p f i = (j, out) ∧ i ≤ j ∧
      (out = none → ∀ x ∈ (recs c p).drop i, it.range.has c.cmpData x = false) ∧
      (out = some none → (∃ x ∈ (recs c p).drop i, ∃ b, it.maxKey = some b ∧ b < x.1) ∧
        ∀ x ∈ (recs c p).drop i, it.range.has c.cmpData x = false) ∧
      (∀ r, out = some (some r) → j ≤ pageCount p ∧ ∃ pre, (recs c p).drop i = pre ++ r :: (recs c p).drop j ∧
        it.range.has c.cmpData r = true ∧ ∀ x ∈ pre, it.range.has c.cmpData x = false) := by
  intro f
  induction f with
  | zero =>
    intro i hf
    refine ⟨i, none, rfl, le_refl _, ?_, (by intro h; cases h), (by intro r h; cases h)⟩
    intro _ x hx
    rw [List.drop_eq_nil_of_le (by rw [recs_length]; omega)] at hx
    cases hx
  | succ f ih =>
    intro i hf
    have hfi : f = pageCount p - (i + 1) := by omega
    have hi : i < pageCount p := by omega
    have hk := hs.bound i hi
    have hd := drop_recs (c := c) hi
    obtain ⟨t1, t2, t3⟩ := tests hc hq hk (slotData c p i)
    obtain ⟨j, out, e1, e2, e3, e4, e5⟩ := ih (i + 1) hfi
    -- skipping the record at slot `i`
    have skip : it.range.has c.cmpData (slotKey c p i, slotData c p i) = false →
        ∃ j' out', (j, out) = (j', out') ∧ i ≤ j' ∧
        (out' = none → ∀ x ∈ (recs c p).drop i, it.range.has c.cmpData x = false) ∧
        (out' = some none → (∃ x ∈ (recs c p).drop i, ∃ b, it.maxKey = some b ∧ b < x.1) ∧
          ∀ x ∈ (recs c p).drop i, it.range.has c.cmpData x = false) ∧
        (∀ r, out' = some (some r) → j' ≤ pageCount p ∧ ∃ pre, (recs c p).drop i = pre ++ r :: (recs c p).drop j' ∧
          it.range.has c.cmpData r = true ∧ ∀ x ∈ pre, it.range.has c.cmpData x = false) := by
      intro hno
      refine ⟨j, out, rfl, by omega, ?_, ?_, ?_⟩
      · intro ho x hx
        rw [hd] at hx
        rcases List.mem_cons.mp hx with rfl | hx
        · exact hno
        · exact e3 ho x hx
      · intro ho
        obtain ⟨⟨x, hx1, hx2⟩, h2⟩ := e4 ho
        refine ⟨⟨x, by rw [hd]; exact List.mem_cons_of_mem _ hx1, hx2⟩, ?_⟩
        intro y hy
        rw [hd] at hy
        rcases List.mem_cons.mp hy with rfl | hy
        · exact hno
        · exact h2 y hy
      · intro r ho
        obtain ⟨p0, pre, p1, p2, p3⟩ := e5 r ho
        refine ⟨p0, (slotKey c p i, slotData c p i) :: pre, by rw [hd, p1]; rfl, p2, ?_⟩
        intro x hx
        rcases List.mem_cons.mp hx with rfl | hx
        · exact hno
        · exact p3 x hx
    unfold recLoop
    simp only
    by_cases c1 : it.minKey.any (fun b => c.cmpKey (slotKey c p i) b < 0) = true
    · rw [if_pos c1, e1]
      apply skip
      rw [Bool.eq_false_iff]
      intro h
      exact (t3.mp h).1 (t1.mp c1)
    · rw [if_neg c1]
      by_cases c2 : it.maxKey.any (fun b => c.cmpKey (slotKey c p i) b > 0) = true
      · rw [if_pos c2]
        have hno : it.range.has c.cmpData (slotKey c p i, slotData c p i) = false := by
          rw [Bool.eq_false_iff]
          intro h
          exact (t3.mp h).2.1 (t2.mp c2)
        obtain ⟨b, b1, b2⟩ := t2.mp c2
        refine ⟨i + 1, some none, rfl, by omega, (by intro h; cases h), ?_, (by intro r h; cases h)⟩
        intro _
        refine ⟨⟨_, by rw [hd]; exact List.mem_cons_self, b, b1, b2⟩, ?_⟩
        intro x hx
        obtain ⟨m, hm, hm2⟩ := List.mem_iff_getElem.mp hx
        rw [List.length_drop, recs_length] at hm
        rw [List.getElem_drop, recs_getElem] at hm2
        have him : i + m < pageCount p := by clear t1 t2 t3 skip; omega
        rw [← hm2]
        rw [Bool.eq_false_iff]
        intro h
        have t := (tests hc hq (hs.bound (i + m) him) (slotData c p (i + m))).2.2.mp h
        apply t.2.1
        refine ⟨b, b1, ?_⟩
        rcases Nat.eq_zero_or_pos m with h0 | h0
        · rw [h0]; exact b2
        · have := hs.asc i (i + m) (Nat.lt_add_of_pos_right h0) him; exact lt_trans b2 this
      · rw [if_neg c2]
        by_cases c3 : it.minData.any (fun b => c.cmpData (slotData c p i) b < 0) = true
        · rw [if_pos c3, e1]
          apply skip
          rw [Bool.eq_false_iff]
          intro h
          exact (t3.mp h).2.2.1 c3
        · rw [if_neg c3]
          by_cases c4 : it.maxData.any (fun b => c.cmpData (slotData c p i) b > 0) = true
          · rw [if_pos c4, e1]
            apply skip
            rw [Bool.eq_false_iff]
            intro h
            exact (t3.mp h).2.2.2 c4
          · rw [if_neg c4]
            refine ⟨i + 1, _, rfl, by omega, (by intro h; cases h), (by intro h; cases h), ?_⟩
            intro r hr
            simp only [Option.some.injEq] at hr
            subst hr
            refine ⟨hi, [], by rw [hd]; rfl, ?_, by simp⟩
            rw [t3, ← t1, ← t2]
            exact ⟨c1, c2, c3, c4⟩

end

/-! ### The whole loop -/

section
variable {c : Cfg} {lo K a : Nat} {L : Log}

/-- What one call of `embedDBNext` achieves. -/
structure NextOk (c : Cfg) (L : Log) (it it' : Iter) (out : Option Rec) : Prop where
  range : it'.range = it.range
  qbm : it'.qbm = it.qbm
  page : it.page ≤ it'.page
  found : ∀ r, out = some r → ∃ pre, rest L it.page it.slot = pre ++ r :: rest L it'.page it'.slot ∧
    it.range.has c.cmpData r = true ∧ ∀ x ∈ pre, it.range.has c.cmpData x = false
  done : out = none → (∀ x ∈ rest L it.page it.slot, it.range.has c.cmpData x = false) ∧
    ∀ x ∈ rest L it'.page it'.slot, x ∈ rest L it.page it.slot
  pos : ∀ r, out = some r → ∃ pg, (L.pages ++ [L.buf])[it'.page]? = some pg ∧ r ∈ pg ∧ it'.slot ≤ pg.length

theorem rest_sorted (h : L.all.Pairwise (fun r s => r.1 < s.1)) (pg slot : Nat) :
    (rest L pg slot).Pairwise (fun r s => r.1 < s.1) := by
  rw [all_eq] at h
  have h0 : (rest L pg 0).Pairwise (fun r s => r.1 < s.1) := by
    rw [rest_zero]
    refine h.sublist ?_
    conv_rhs => rw [← List.take_append_drop pg (L.pages ++ [L.buf]), List.flatten_append]
    exact List.sublist_append_right _ _
  cases hd : (L.pages ++ [L.buf]).drop pg with
  | nil => unfold rest; rw [hd]; exact List.Pairwise.nil
  | cons p t =>
    rw [rest_cons hd] at h0 ⊢
    refine h0.sublist ?_
    exact (List.drop_sublist_drop_left p (Nat.zero_le slot)).append_right _

/-- One page examined by the outer loop. -/
theorem page_step (hc : CmpOk c.cmpKey K) {it : Iter} (hq : KeysOk K it.range)
    (hsort : L.all.Pairwise (fun r s => r.1 < s.1)) {p : Page} (hs : SortedPage c K p)
    {t : List (List Rec)} (hd : (L.pages ++ [L.buf]).drop it.page = recs c p :: t) :
    ∃ j out, recLoop c it p (pageCount p - it.slot) it.slot = (j, out) ∧
      (out = none → ∀ it' o, NextOk c L { it with page := it.page + 1, slot := 0 } it' o → NextOk c L it it' o) ∧
      (∀ o, out = some o → NextOk c L it { it with slot := j } o) := by
  obtain ⟨j, out, e1, e2, e3, e4, e5⟩ := recLoop_ok hc hq hs (pageCount p - it.slot) it.slot rfl
  refine ⟨j, out, e1, ?_, ?_⟩
  · intro ho it' o H
    have hno := e3 ho
    have hr := H.range
    have hsplit := rest_cons hd it.slot
    have hbase : rest L (it.page + 1) 0 = rest L { it with page := it.page + 1, slot := 0 }.page
      { it with page := it.page + 1, slot := 0 }.slot := rfl
    refine ⟨hr, H.qbm, by have := H.page; simp only at this; omega, ?_, ?_, H.pos⟩
    · intro r hor
      obtain ⟨pre, p1, p2, p3⟩ := H.found r hor
      refine ⟨(recs c p).drop it.slot ++ pre, ?_, p2, ?_⟩
      · rw [hsplit]
        simp only at p1
        rw [p1, List.append_assoc]
      · intro x hx
        rcases List.mem_append.mp hx with h | h
        · exact hno x h
        · exact p3 x h
    · intro hon
      obtain ⟨h1, h2⟩ := H.done hon
      rw [hsplit]
      constructor
      · intro x hx
        rcases List.mem_append.mp hx with h | h
        · exact hno x h
        · exact h1 x h
      · intro x hx
        exact List.mem_append_right _ (h2 x hx)
  · intro o ho
    have hsplit := rest_cons hd it.slot
    have hsplit' := rest_cons hd j
    refine ⟨rfl, rfl, le_refl _, ?_, ?_, ?_⟩
    rotate_right
    · intro r hr
      rw [hr] at ho
      obtain ⟨p0, pre, p1, -, -⟩ := e5 r ho
      refine ⟨recs c p, ?_, List.mem_of_mem_drop (i := it.slot) (by rw [p1]; simp), by rw [recs_length]; exact p0⟩
      have := congrArg List.head? hd
      rwa [List.head?_drop] at this
    · intro r hr
      rw [hr] at ho
      obtain ⟨-, pre, p1, p2, p3⟩ := e5 r ho
      refine ⟨pre, ?_, p2, p3⟩
      show rest L it.page it.slot = pre ++ r :: rest L it.page j
      rw [hsplit, hsplit', p1, List.append_assoc, List.cons_append]
    · intro hr
      rw [hr] at ho
      obtain ⟨⟨x, hx1, b, b1, b2⟩, h2⟩ := e4 ho
      constructor
      · intro y hy
        have hsrt := rest_sorted hsort it.page it.slot
        rw [hsplit] at hy hsrt
        rcases List.mem_append.mp hy with h | h
        · exact h2 y h
        · have hlt := (List.pairwise_append.mp hsrt).2.2 x hx1 y h
          unfold Range.has Iter.range
          simp only [b1, Option.all_some]
          have : ¬ y.1 ≤ b := by omega
          simp [this]
      · intro y hy
        rw [hsplit]
        have hy' : y ∈ rest L it.page j := hy
        rw [hsplit'] at hy'
        rcases List.mem_append.mp hy' with h | h
        · refine List.mem_append_left _ ?_
          exact (List.drop_sublist_drop_left _ e2).subset h
        · exact List.mem_append_right _ h

theorem nextLoop_ok (hc : CmpOk c.cmpKey K) (hN : 0 < c.N) (x : Idx) : ∀ (f : Nat) (d : Data) (it : Iter),
    Sim c lo K a d L → KeysOk K it.range → it.qbm = none → d.min ≤ it.page → d.next + 1 < f + it.page → 0 < f →
    ∃ d' it' out, nextLoop c f d x it = .ok (d', x, it', out) ∧ SameButCache d d' ∧ Sim c lo K a d' L ∧
      NextOk c L it it' out := by
  intro f
  induction f with
  | zero => intro d it _ _ _ _ _ h; omega
  | succ f ih =>
    intro d it S hq hb hmin hf _
    have hn := S.next
    have hlen : (L.pages ++ [L.buf]).length = d.next + 1 := by simp [hn]
    unfold nextLoop
    by_cases hgt : it.page > d.next
    · rw [if_pos hgt]
      have hnil : rest L it.page it.slot = [] := by
        unfold rest; rw [List.drop_eq_nil_of_le (by omega)]
      refine ⟨d, it, none, rfl, SameButCache.refl d, S, rfl, rfl, le_refl _, (by intro r h; cases h), ?_, (by intro r h; cases h)⟩
      intro _
      rw [hnil]
      exact ⟨by simp, by simp⟩
    · rw [if_neg hgt]
      have hsk : idxSkip c x it = .ok (x, some false) := by unfold idxSkip; rw [hb]
      rw [hsk]
      simp only [Res.ok_bind]
      -- the page to examine
      have hpage : ∃ d1, (if it.page = d.next then (d, true) else readPage d (it.page % c.N)) = (d1, true) ∧
          SameButCache d d1 ∧ Sim c lo K a d1 L ∧
          ∃ t, (L.pages ++ [L.buf]).drop it.page =
            recs c (if it.page = d1.next then d1.wbuf else d1.rbuf) :: t ∧
            SortedPage c K (if it.page = d1.next then d1.wbuf else d1.rbuf) := by
        by_cases he : it.page = d.next
        · rw [if_pos he]
          refine ⟨d, rfl, SameButCache.refl d, S, [], ?_, ?_⟩
          · rw [if_pos he, S.buf, he, hn]; simp
          · rw [if_pos he]; exact S.sortedBuf
        · rw [if_neg he]
          obtain ⟨d1, r1, r2, r3, -, r5, -, -⟩ := S.readPage hN (l := it.page) hmin (by omega)
          have hlt : it.page < L.pages.length := by omega
          have hne : ¬ it.page = d1.next := by rw [r2.next]; exact he
          rw [getD_page hlt] at r5
          refine ⟨d1, r1, r2, r3, (L.pages ++ [L.buf]).drop (it.page + 1), ?_, ?_⟩
          · rw [if_neg hne, List.drop_eq_getElem_cons (by omega), r5, List.getElem_append_left hlt]
          · rw [if_neg hne]; exact S.sortedPage hlt r5
      obtain ⟨d1, p1, p2, p3, t, p4, p5⟩ := hpage
      rw [p1]
      simp only [if_true]
      obtain ⟨j, out, s1, s2, s3⟩ := page_step hc hq S.sorted p5 p4
      rw [s1]
      cases out with
      | some o =>
        simp only
        exact ⟨d1, _, o, rfl, p2, p3, s3 o rfl⟩
      | none =>
        simp only
        by_cases hf0 : f = 0
        · exfalso; omega
        · obtain ⟨d2, it', o, q1, q2, q3, q4⟩ := ih d1 { it with page := it.page + 1, slot := 0 } p3 hq hb
            (by rw [p2.min]; simp only; omega) (by rw [p2.next]; simp only; omega) (by omega)
          refine ⟨d2, it', o, q1, p2.trans q2, q3, s2 rfl _ _ q4⟩

theorem next_ok (hc : CmpOk c.cmpKey K) (hN : 0 < c.N) (x : Idx) {d : Data} {it : Iter} (S : Sim c lo K a d L)
    (hq : KeysOk K it.range) (hb : it.qbm = none) (hmin : d.min ≤ it.page) :
    ∃ d' it' out, next c d x it = .ok (d', x, it', out) ∧ SameButCache d d' ∧ Sim c lo K a d' L ∧
      NextOk c L it it' out := by
  unfold next
  exact nextLoop_ok hc hN x _ d it S hq hb hmin (by omega) (by omega)

/-! ### The start position -/

theorem find_below {s : Spline} {h : Nat → Nat} {b : Nat} (I : Spline.Inv s h a b)
    (F : Spline.Feed h s.maxErr a b) (hab : a < b) {cmp : Nat → Nat → Int} (hc : CmpOk cmp K) {key : Nat} (hk : key < K)
    (hh : ∀ p, a ≤ p → p < b → h p < K) (hlt : key < h a) {r : Spline.Found} (hr : s.find cmp key = .ok r) : r.low = a := by
  have h0 : cmp key (s.pt 0).1 < 0 ∨ s.count ≤ 1 := by
    rcases Nat.eq_or_lt_of_le (show a + 1 ≤ b by omega) with hb | hb
    · right; have := (I.one hb.symm).1; omega
    · left
      have M := I.many hb
      have h2 := M.two
      have hr := M.pt_range (show 0 < s.count by omega)
      rw [M.pts 0 (by omega), hc.lt _ _ hk (hh _ hr.1 hr.2)]
      rcases Nat.eq_or_lt_of_le hr.1 with he | hl
      · rw [← he]; exact hlt
      · exact lt_trans hlt (F.mono _ _ (le_refl _) hl hr.2)
  unfold Spline.find at hr
  rw [if_pos h0] at hr
  cases hr
  rw [I.first hab]

theorem exists_page {h : Nat → Nat} {k : Nat} (h1 : h a ≤ k) : ∀ l, a < l → k < h l → ∃ p, a ≤ p ∧ p < l ∧ h p ≤ k ∧ k < h (p + 1) := by
  intro l
  induction l with
  | zero => intro h; omega
  | succ n ih =>
    intro hal hk
    by_cases hn : h n ≤ k
    · exact ⟨n, by omega, by omega, hn, hk⟩
    · have hne : a ≠ n := by rintro rfl; exact hn h1
      obtain ⟨p, p1, p2, p3, p4⟩ := ih (by omega) (by omega)
      exact ⟨p, p1, by omega, p3, p4⟩

/-- Pages before the spline's lower bound hold only smaller keys. -/
theorem before_low (hc : CmpOk c.cmpKey K) {P : Nat} (hB : Bounds c lo K P) {k : Nat} (hk : k < K) {d : Data}
    (S : Sim c lo K a d L) (hP : d.next ≤ P) (hab : a < d.next) :
    ∃ r, d.spl.find c.cmpKey k = .ok r ∧ r.low < d.next ∧
      ∀ l, a ≤ l → l < r.low → ∀ x ∈ L.pages.getD l [], x.1 < k := by
  have F := S.feed hB hP hab
  have hn := S.next
  have hh : ∀ p, a ≤ p → p < d.next → firstKey L p < K := fun p _ h2 => (S.firstKey_bound (by omega)).2
  obtain ⟨r, hr, G⟩ := S.spl.find F hab hc hk hh
  have g1 := G.lo
  have g2 := G.hi
  have g3 := G.inside
  refine ⟨r, hr, by omega, ?_⟩
  intro l h1 h2 x hx
  by_contra hcon
  have hll : l < L.pages.length := by omega
  rw [getD_page hll] at hx
  have hne := S.full _ (List.getElem_mem hll)
  by_cases hl : firstKey L l ≤ k
  · have := G.bracket l h1 (by omega) hl (by
      intro hlt
      have hll' : l + 1 < L.pages.length := by omega
      have hne' := S.full _ (List.getElem_mem hll')
      rw [firstKey_eq hll' hne']
      have := Log_pages_sorted S.sorted (Nat.lt_succ_self l) hll' x hx _ (List.head_mem hne')
      omega)
    omega
  · by_cases ha : firstKey L a ≤ k
    · have hal : a < l := by
        rcases Nat.eq_or_lt_of_le h1 with he | h
        · rw [he] at ha; exact absurd ha hl
        · exact h
      obtain ⟨p, p1, p2, p3, p4⟩ := exists_page ha l hal (by omega)
      have := G.bracket p p1 (by omega) p3 (fun _ => p4)
      omega
    · have := find_below S.spl F hab hc hk hh (by omega) hr
      omega

/-- Starting a scan at a later page skips only records outside the range. -/
theorem scan_from {cmp : List Byte → List Byte → Int} {q : Range} {m : Nat} : ∀ n, (∀ l, m ≤ l → l < m + n → l < L.pages.length ∧
    ∀ x ∈ L.pages.getD l [], q.has cmp x = false) →
    Spec.scan cmp q (rest L m 0) = Spec.scan cmp q (rest L (m + n) 0) := by
  intro n
  induction n with
  | zero => intro _; rfl
  | succ n ih =>
    intro h
    rw [ih (fun l h1 h2 => h l h1 (by omega))]
    obtain ⟨h1, h2⟩ := h (m + n) (by omega) (by omega)
    rw [getD_page h1] at h2
    have hd : (L.pages ++ [L.buf]).drop (m + n) = L.pages[m + n] :: (L.pages ++ [L.buf]).drop (m + n + 1) := by
      rw [List.drop_eq_getElem_cons (by simp; omega), List.getElem_append_left h1]
    rw [rest_cons hd]
    unfold Spec.scan
    rw [List.drop_zero, List.filter_append, List.filter_eq_nil_iff.mpr (by intro x hx; rw [h2 x hx]; simp), List.nil_append]
    rfl

/-- `embedDBInitIterator`. -/
theorem initIter_keys (hc : CmpOk c.cmpKey K) {P : Nat} (hB : Bounds c lo K P) (hbs : c.binSearch = false)
    {d : Data} (S : Sim c lo K a d L) (hP : d.next ≤ P) {q : Range} (hq : KeysOk K q)
    (hbm : (c.useBmap && (q.minData.isSome || q.maxData.isSome)) = false) :
    ∃ it, initIter c d q.minKey q.maxKey q.minData q.maxData = .ok it ∧ it.range = q ∧ it.qbm = none ∧ it.slot = 0 ∧
      d.min ≤ it.page ∧ it.page ≤ d.next ∧
      Spec.scan c.cmpData q (rest L it.page 0) = Spec.scan c.cmpData q (L.live d.min) := by
  have hn := S.next
  have hml := S.minle
  have hlive : Spec.scan c.cmpData q (rest L d.min 0) = Spec.scan c.cmpData q (L.live d.min) := by
    rw [rest_all L d.min (by omega)]
  unfold initIter
  simp only [hbm, hbs, Bool.false_eq_true, if_false]
  by_cases hcnt : d.spl.count ≠ 0
  · rw [if_pos hcnt]
    have hab : a < d.next := by
      have h1 := S.spl.le
      rcases Nat.eq_or_lt_of_le h1 with he | h
      · exact absurd (S.spl.zero he.symm).1 hcnt
      · exact h
    cases hmk : q.minKey with
    | none =>
      simp only
      exact ⟨_, rfl, by simp only [Iter.range]; rw [← hmk], rfl, rfl, le_refl _, hml, hlive⟩
    | some k =>
      simp only
      have hk := hq.min k hmk
      obtain ⟨r, hr, r1, r2⟩ := before_low hc hB hk S hP hab
      rw [hr, Res.ok_bind]
      refine ⟨_, rfl, by simp only [Iter.range]; rw [← hmk], rfl, rfl, Nat.le_max_right _ _, ?_, ?_⟩
      · show max r.low d.min ≤ d.next
        exact Nat.max_le.mpr ⟨by omega, hml⟩
      · rw [← hlive]
        show Spec.scan c.cmpData q (rest L (max r.low d.min) 0) = _
        obtain ⟨n, hn2⟩ : ∃ n, max r.low d.min = d.min + n :=
          ⟨max r.low d.min - d.min, by have := Nat.le_max_right r.low d.min; omega⟩
        rw [hn2]
        symm
        apply scan_from
        intro l h1 h2
        have hlow : l < r.low := by
          have h3 : l < max r.low d.min := by omega
          rcases Nat.lt_or_ge l r.low with h | h
          · exact h
          · have : max r.low d.min ≤ l := Nat.max_le.mpr ⟨h, h1⟩
            omega
        refine ⟨by omega, ?_⟩
        intro x hx
        have := r2 l (by have := S.amin; omega) hlow x hx
        unfold Range.has
        rw [hmk]
        have h4 : ¬ k ≤ x.1 := by omega
        simp [h4]
  · rw [if_neg hcnt]
    exact ⟨_, rfl, rfl, rfl, rfl, le_refl _, hml, hlive⟩

theorem initIter_ok (hc : CmpOk c.cmpKey K) {P : Nat} (hB : Bounds c lo K P) (hbs : c.binSearch = false)
    (hbm : c.useBmap = false) {d : Data} (S : Sim c lo K a d L) (hP : d.next ≤ P) {q : Range} (hq : KeysOk K q) :
    ∃ it, initIter c d q.minKey q.maxKey q.minData q.maxData = .ok it ∧ it.range = q ∧ it.qbm = none ∧ it.slot = 0 ∧
      d.min ≤ it.page ∧ it.page ≤ d.next ∧
      Spec.scan c.cmpData q (rest L it.page 0) = Spec.scan c.cmpData q (L.live d.min) :=
  initIter_keys hc hB hbs S hP hq (by rw [hbm]; rfl)

end

end EDB
