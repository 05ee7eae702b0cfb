import Verif.Proofs.IdxScan
import Verif.Proofs.Cost
import Verif.Spec.IdxCost

/-! Helper lemmas for C76: the pages that scans with a bitmap index read. -/

namespace EDB

open Spec (Log Range Op Out)

section
variable {c : Cfg} {L : Log}

theorem meets_of_overlap {a b : List Byte} (h : bitmapOverlap a b = true) : Spec.Meets a b := by
  unfold bitmapOverlap at h
  rw [List.any_eq_true] at h
  obtain ⟨xy, hm, hx⟩ := h
  obtain ⟨i, hi, rfl⟩ := List.mem_iff_getElem.mp hm
  rw [List.length_zip] at hi
  refine ⟨i, ?_⟩
  rw [List.getElem_zip] at hx
  simp only [List.getD_eq_getElem?_getD]
  rw [List.getElem?_eq_getElem (by omega), List.getElem?_eq_getElem (by omega)]
  simpa using hx

/-- The bitmap of page `l` of the log. -/
def bmOf (c : Cfg) (L : Log) (l : Nat) : List Byte := Spec.pageBitmap c.updBm (hdrBm c (initPage c)) (L.pages.getD l [])

/-- Pages the scan may still have to read, from page `a` on. -/
noncomputable def leftFrom (c : Cfg) (L : Log) (x : Idx) (n : Nat) (qb : List Byte) (a : Nat) : Nat :=
  Spec.toRead (bmOf c L) qb (x.min * c.maxIdx) (x.next * c.maxIdx) a n

/-- The same for an iterator, which has read its page already if it stands within it. -/
noncomputable def leftOf (c : Cfg) (L : Log) (x : Idx) (n : Nat) (qb : List Byte) (it : Iter) : Nat :=
  leftFrom c L x n qb (if 0 < it.slot then it.page + 1 else it.page)

theorem leftFrom_end {x : Idx} {n a : Nat} {qb : List Byte} (h : n ≤ a) : leftFrom c L x n qb a = 0 := by
  unfold leftFrom Spec.toRead
  rw [Nat.sub_eq_zero_of_le h]; rfl

open Classical in
theorem leftFrom_cons {x : Idx} {n a : Nat} {qb : List Byte} (h : a < n) : leftFrom c L x n qb a =
    leftFrom c L x n qb (a + 1) +
      if ¬ (x.min * c.maxIdx ≤ a ∧ a < x.next * c.maxIdx) ∨ Spec.Meets qb (bmOf c L a) then 1 else 0 := by
  unfold leftFrom Spec.toRead
  rw [show n - a = (n - (a + 1)) + 1 by omega, List.range'_succ, List.countP_cons]
  simp only [decide_eq_true_eq]

theorem leftFrom_step {x : Idx} {n a : Nat} {qb : List Byte} :
    leftFrom c L x n qb (a + 1) ≤ leftFrom c L x n qb a ∧ leftFrom c L x n qb a ≤ leftFrom c L x n qb (a + 1) + 1 := by
  by_cases h : a < n
  · rw [leftFrom_cons h]; split_ifs <;> omega
  · rw [leftFrom_end (by omega), leftFrom_end (by omega)]; omega

theorem leftFrom_mono {x : Idx} {n : Nat} {qb : List Byte} {a b : Nat} (h : a ≤ b) :
    leftFrom c L x n qb b ≤ leftFrom c L x n qb a := by
  induction b, h using Nat.le_induction with
  | base => exact le_refl _
  | succ b _ ih => exact le_trans leftFrom_step.1 ih

theorem leftFrom_same {x x' : Idx} (h : SameIdx x x') {n a : Nat} {qb : List Byte} :
    leftFrom c L x' n qb a = leftFrom c L x n qb a := by
  unfold leftFrom; rw [h.min, h.next]

/-- What the index says about a page, when the scan comes to it. -/
theorem IdxInv.says (hx : c.IdxOk) (hB : 0 < c.B) {x x' : Idx} (I : IdxInv c x L) {it : Iter} {sk : Bool} {qb : List Byte}
    (hq : it.qbm = some qb) (hqb : qb = c.buildBm it.minData it.maxData) (e : idxSkip c x it = .ok (x', some sk)) :
    (0 < it.slot → sk = false) ∧
    (it.slot = 0 → sk = false → ¬ (x.min * c.maxIdx ≤ it.page ∧ it.page < x.next * c.maxIdx) ∨ Spec.Meets qb (bmOf c L it.page)) := by
  unfold idxSkip at e
  rw [hq] at e
  simp only at e
  by_cases hs : it.slot = 0
  · rw [if_pos hs] at e
    refine ⟨fun h => by omega, fun _ hsk => ?_⟩
    have hcap := hx.cap
    rw [if_neg (by rw [hx.index]; simp; omega)] at e
    by_cases hin : x.min ≤ it.page / c.maxIdx ∧ it.page / c.maxIdx < x.next
    · rw [if_pos hin] at e
      obtain ⟨p, p1, p2⟩ := I.stored _ hin.1 hin.2
      have hread : (readIdx x (it.page / c.maxIdx % c.numIdx)).1.rbuf = p ∧
          (readIdx x (it.page / c.maxIdx % c.numIdx)).2 = true := by
        unfold readIdx
        by_cases hb : x.buffered = some (it.page / c.maxIdx % c.numIdx)
        · rw [if_pos hb]
          have := I.cache _ hb _ hin.1 hin.2 rfl
          rw [this] at p1
          exact ⟨Option.some.inj p1, rfl⟩
        · rw [if_neg hb, p1]; exact ⟨rfl, rfl⟩
      rw [hread.2, hread.1] at e
      simp only [if_true, Res.ok.injEq, Prod.mk.injEq, Option.some.injEq] at e
      have hmod := Nat.mod_lt it.page hcap
      have hpage : it.page / c.maxIdx * c.maxIdx + it.page % c.maxIdx = it.page := by
        rw [Nat.mul_comm]; exact Nat.div_add_mod it.page c.maxIdx
      have hcov := p2 _ hmod
      rw [hpage] at hcov
      right
      rw [hsk] at e
      have e2 := e.2
      rw [Bool.not_eq_eq_eq_not, Bool.not_false] at e2
      have hm := meets_of_overlap e2
      rw [show rd p (16 + it.page % c.maxIdx * c.bitmapSize) c.bitmapSize = idxEntry c p (it.page % c.maxIdx) by
        unfold idxEntry; rw [Nat.mul_comm], hcov.exact] at hm
      exact hm
    · left
      intro h
      apply hin
      exact ⟨(Nat.le_div_iff_mul_le hcap).mpr h.1, (Nat.div_lt_iff_lt_mul hcap).mpr h.2⟩
  · rw [if_neg hs] at e
    simp only [Res.ok.injEq, Prod.mk.injEq, Option.some.injEq] at e
    exact ⟨fun _ => e.2.symm, fun h => absurd h hs⟩

theorem nextLoop_idx_cost (hx : c.IdxOk) (hB : 0 < c.B) {qb : List Byte} : ∀ (f : Nat) (d : Data) (x : Idx) (it : Iter),
    IdxInv c x L → it.qbm = some qb → QbmOk c it → Paid c d it → ∀ d' x' it' out,
    nextLoop c f d x it = .ok (d', x', it', out) →
    IdxInv c x' L ∧ it'.qbm = some qb ∧ QbmOk c it' ∧ d'.next = d.next ∧ Paid c d' it' ∧
      d'.numReads + leftOf c L x d.next qb it' ≤ d.numReads + leftOf c L x d.next qb it := by
  intro f
  induction f with
  | zero => intro d x it _ _ _ _ d' x' it' out e; simp [nextLoop] at e
  | succ f ih =>
    intro d x it I hq hqb hp d' x' it' out e
    unfold nextLoop at e
    by_cases h1 : it.page > d.next
    · rw [if_pos h1] at e
      cases e
      exact ⟨I, hq, hqb, rfl, hp, le_refl _⟩
    · rw [if_neg h1] at e
      obtain ⟨x1, sk, k1, I1, k2⟩ := I.skip hx hB hqb
      have s1 := idxSkip_same k1
      obtain ⟨u1, u2⟩ := I.says hx hB hq (hqb qb hq) k1
      rw [k1, Res.ok_bind] at e
      cases sk with
      | true =>
        have hs := (k2 rfl).1
        obtain ⟨g1, g2, g3, g4, g5, g6⟩ := ih d x1 { it with page := it.page + 1 } I1 hq hqb
          (fun _ h => by simp only at h; omega) d' x' it' out e
        refine ⟨g1, g2, g3, g4, g5, ?_⟩
        unfold leftOf at g6 ⊢
        simp only [leftFrom_same s1, hs, Nat.lt_irrefl, if_false] at g6 ⊢
        have := (leftFrom_step (c := c) (L := L) (x := x) (n := d.next) (a := it.page) (qb := qb)).1
        omega
      | false =>
        simp only at e
        obtain ⟨d1, r, hr⟩ : ∃ d1 r, (if it.page = d.next then (d, true) else readPage d (it.page % c.N)) = (d1, r) :=
          ⟨_, _, rfl⟩
        rw [hr] at e
        simp only at e
        cases r with
        | false =>
          rw [if_neg (by simp)] at e
          have hd : d1.next = d.next ∧ Paid c d1 it ∧ d1.numReads = d.numReads := by
            by_cases hn : it.page = d.next
            · rw [if_pos hn] at hr; cases hr
            · rw [if_neg hn] at hr
              unfold readPage at hr
              by_cases hb : d.buffered = some (it.page % c.N)
              · rw [if_pos hb] at hr; cases hr
              · rw [if_neg hb] at hr
                cases hf : d.dev.file (it.page % c.N) with
                | none => rw [hf] at hr; cases hr; exact ⟨rfl, hp, rfl⟩
                | some p => rw [hf] at hr; cases hr
          cases e
          exact ⟨I1, hq, hqb, hd.1, hd.2.1, by rw [hd.2.2]⟩
        | true =>
          rw [if_pos rfl] at e
          -- the page is paid for
          have hd : d1.next = d.next ∧ (it.page < d.next → d1.buffered = some (it.page % c.N)) ∧
              d1.numReads + leftFrom c L x d.next qb (it.page + 1) ≤ d.numReads + leftOf c L x d.next qb it := by
            by_cases hn : it.page = d.next
            · rw [if_pos hn] at hr; cases hr
              refine ⟨rfl, fun h => by omega, ?_⟩
              rw [leftFrom_end (by omega)]; omega
            · rw [if_neg hn] at hr
              obtain ⟨b1, b2, b3⟩ := readPage_cost hr
              have hsm := readPage_same d (it.page % c.N)
              rw [hr] at hsm
              refine ⟨hsm.next, fun _ => b1, ?_⟩
              unfold leftOf
              by_cases hs : 0 < it.slot
              · rw [if_pos hs, b3 (hp (by omega) hs)]
              · rw [if_neg hs, leftFrom_cons (a := it.page) (by omega), if_pos (u2 (by omega) rfl)]
                omega
          obtain ⟨v1, v2, v3⟩ := hd
          split at e
          · obtain ⟨g1, g2, g3, g4, g5, g6⟩ := ih d1 x1 { it with page := it.page + 1, slot := 0 } I1 hq hqb
              (fun _ h => by simp only at h; omega) d' x' it' out e
            refine ⟨g1, g2, g3, g4.trans v1, g5, ?_⟩
            unfold leftOf at g6 v3 ⊢
            simp only [leftFrom_same s1, Nat.lt_irrefl, if_false, v1] at g6 v3 ⊢
            omega
          · rename_i i o hrec
            cases e
            have hi := recLoop_slot _ _ _ _ hrec
            refine ⟨I1, hq, hqb, v1, fun h _ => v2 (by rw [v1] at h; exact h), ?_⟩
            rw [show leftOf c L x d.next qb { it with slot := i } = leftFrom c L x d.next qb (it.page + 1) by
              unfold leftOf; rw [if_pos (show 0 < i by omega)]]
            exact v3

theorem collect_idx_cost (hx : c.IdxOk) (hB : 0 < c.B) {qb : List Byte} : ∀ (f : Nat) (d : Data) (x : Idx) (it : Iter),
    IdxInv c x L → it.qbm = some qb → QbmOk c it → Paid c d it → ∀ d' x' it' rs,
    collect c f d x it = .ok (d', x', it', rs) → d'.numReads ≤ d.numReads + leftOf c L x d.next qb it := by
  intro f
  induction f with
  | zero => intro d x it _ _ _ _ d' x' it' out e; simp [collect] at e
  | succ f ih =>
    intro d x it I hq hqb hp d' x' it' rs e
    unfold collect at e
    obtain ⟨⟨d1, x1, it1, o⟩, h1, e⟩ := Res.bind_eq_ok e
    obtain ⟨g1, g2, g3, g4, g5, g6⟩ := nextLoop_idx_cost hx hB _ d x it I hq hqb hp d1 x1 it1 o h1
    have s1 := nextLoop_sameIdx _ _ _ _ _ _ _ _ h1
    cases o with
    | none => cases e; omega
    | some r =>
      obtain ⟨⟨d2, x2, it2, rs2⟩, h2, e⟩ := Res.bind_eq_ok e
      cases e
      have := ih d1 x1 it1 g1 g2 g3 g5 _ _ _ _ h2
      unfold leftOf at this g6 ⊢
      rw [leftFrom_same s1, g4] at this
      omega

end

end EDB
