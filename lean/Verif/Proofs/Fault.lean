import Verif.Model.Fault
import Verif.Proofs.Mixed

/-! Helper lemmas: lookups and iterators while reads fail. -/

namespace EDB

open Spec (Log Range Op Out MOp MOut FOp Cursor setAt)

section
variable {c : Cfg} {lo K m : Nat} {L : Log}

/-! ### A read that fails changes nothing -/

theorem readPage_without (d : Data) (bad : List Nat) (ph : Nat) :
    readPage (d.without bad) ph = ((readPage d ph).1.without bad, (readPage d ph).2) ∨
    readPage (d.without bad) ph = (d.without bad, false) := by
  unfold readPage
  by_cases hb : d.buffered = some ph
  · left
    rw [if_pos (show (d.without bad).buffered = some ph from hb), if_pos hb]
  · rw [if_neg (show ¬ (d.without bad).buffered = some ph from hb), if_neg hb]
    by_cases hm : ph ∈ bad
    · right
      have : (d.without bad).dev.file ph = none := if_pos hm
      rw [this]
    · left
      have : (d.without bad).dev.file ph = d.dev.file ph := if_neg hm
      rw [this]
      cases d.dev.file ph <;> rfl

theorem readIdx_without (x : Idx) (bad : List Nat) (ph : Nat) :
    readIdx (x.without bad) ph = ((readIdx x ph).1.without bad, (readIdx x ph).2) ∨
    readIdx (x.without bad) ph = (x.without bad, false) := by
  unfold readIdx
  by_cases hb : x.buffered = some ph
  · left
    rw [if_pos (show (x.without bad).buffered = some ph from hb), if_pos hb]
  · rw [if_neg (show ¬ (x.without bad).buffered = some ph from hb), if_neg hb]
    by_cases hm : ph ∈ bad
    · right
      have : (x.without bad).dev.file ph = none := if_pos hm
      rw [this]
    · left
      have : (x.without bad).dev.file ph = x.dev.file ph := if_neg hm
      rw [this]
      cases x.dev.file ph <;> rfl

theorem Data.without_nil (d : Data) : d.without [] = d := by
  unfold Data.without Dev.without
  simp

theorem Idx.without_nil (x : Idx) : x.without [] = x := by
  unfold Idx.without Dev.without
  simp

theorem Data.restore {d d' : Data} (h : d'.dev = d.dev) (bad : List Nat) : { d'.without bad with dev := d.dev } = d' := by
  rw [← h]; rfl

theorem Idx.restore {x x' : Idx} (h : x'.dev = x.dev) (bad : List Nat) : { x'.without bad with dev := x.dev } = x' := by
  rw [← h]; rfl

/-! ### Lookups -/

/-- `J` holds of every state reached by reading retained pages. -/
def Readable (c : Cfg) (J : Data → Prop) : Prop :=
  ∀ d l, J d → d.min ≤ l → l < d.next → J (readPage d (l % c.N)).1

theorem linSearch_without {J : Data → Prop} (hJ : Readable c J) (bad : List Nat) (key : Nat) :
    ∀ (f : Nat) (d : Data) (p low high : Int) (d' : Data) (r : Bool), J d →
      linSearch c key f d p low high = .ok (d', r) →
      linSearch c key f (d.without bad) p low high = .ok (d'.without bad, r) ∨
      ∃ d1, linSearch c key f (d.without bad) p low high = .ok (d1.without bad, false) ∧ J d1 ∧ d1.dev = d.dev ∧ bad ≠ [] := by
  intro f
  induction f with
  | zero => intro d p low high d' r _ e; simp [linSearch] at e
  | succ f ih =>
    intro d p low high d' r hd e
    by_cases hbad : bad = []
    · left
      subst hbad
      rw [Data.without_nil, Data.without_nil]
      exact e
    unfold linSearch at e ⊢
    by_cases h1 : p > high ∨ p < low ∨ low > high ∨ p < d.min ∨ p ≥ d.next
    · rw [if_pos h1] at e
      rw [if_pos (show p > high ∨ p < low ∨ low > high ∨ p < (d.without bad).min ∨ p ≥ (d.without bad).next from h1)]
      left
      cases e
      rfl
    · rw [if_neg h1] at e
      rw [if_neg (show ¬ (p > high ∨ p < low ∨ low > high ∨ p < (d.without bad).min ∨ p ≥ (d.without bad).next) from h1)]
      have hin := hJ d p.toNat hd (by omega) (by omega)
      have hsame := readPage_same d (p.toNat % c.N)
      rcases readPage_without d bad (p.toNat % c.N) with h2 | h2
      · rw [h2]
        obtain ⟨d1, r1, hr⟩ : ∃ d1 r1, readPage d (p.toNat % c.N) = (d1, r1) := ⟨_, _, rfl⟩
        rw [hr] at e hin hsame ⊢
        simp only at e hin hsame ⊢
        have hcont : ∀ (p' low' high' : Int), linSearch c key f d1 p' low' high' = .ok (d', r) →
            linSearch c key f (d1.without bad) p' low' high' = .ok (d'.without bad, r) ∨
            ∃ d2, linSearch c key f (d1.without bad) p' low' high' = .ok (d2.without bad, false) ∧ J d2 ∧ d2.dev = d.dev ∧
              bad ≠ [] := by
          intro p' low' high' e'
          rcases ih d1 p' low' high' d' r hin e' with h | ⟨d2, h3, h4, h5, h6⟩
          · exact Or.inl h
          · exact Or.inr ⟨d2, h3, h4, h5.trans hsame.dev, h6⟩
        cases r1 with
        | false =>
          simp only [Bool.false_eq_true, if_false] at e ⊢
          left
          cases e
          rfl
        | true =>
          simp only [if_true] at e ⊢
          have hrb : (d1.without bad).rbuf = d1.rbuf := rfl
          rw [hrb]
          by_cases h3 : c.cmpKey key (pageMinKey c d1.rbuf) < 0
          · rw [if_pos h3] at e ⊢
            exact hcont _ _ _ e
          · rw [if_neg h3] at e ⊢
            by_cases h4 : c.cmpKey key (pageMaxKey c d1.rbuf) > 0
            · rw [if_pos h4] at e ⊢
              exact hcont _ _ _ e
            · rw [if_neg h4] at e ⊢
              left
              cases e
              rfl
      · right
        rw [h2]
        exact ⟨d, rfl, hd, rfl, hbad⟩

theorem get_without {J : Data → Prop} (hJ : Readable c J) (hbs : c.binSearch = false) (bad : List Nat) {key : Nat} {d d' : Data}
    {code : Int} {out : Option (List Byte)} (hd : J d) (e : get c d key = .ok (d', code, out)) :
    get c (d.without bad) key = .ok (d'.without bad, code, out) ∨
    ∃ d1, get c (d.without bad) key = .ok (d1.without bad, -1, none) ∧ J d1 ∧ d1.dev = d.dev ∧ bad ≠ [] := by
  have hbuf : ∀ {d' : Data} {code : Int} {out : Option (List Byte)},
      (do let (r, out) ← searchBuffer c d.wbuf key
          Res.ok (d, (if r ≠ -1 then 0 else -1 : Int), out)) = .ok (d', code, out) →
      (do let (r, out) ← searchBuffer c d.wbuf key
          Res.ok (d.without bad, (if r ≠ -1 then 0 else -1 : Int), out)) = .ok (d'.without bad, code, out) := by
    intro d' code out h
    obtain ⟨⟨r, o⟩, h1, h2⟩ := Res.bind_eq_ok h
    rw [h1, Res.ok_bind]
    cases h2
    rfl
  have hst : getStored c d key = .ok (d', code, out) →
      getStored c (d.without bad) key = .ok (d'.without bad, code, out) ∨
      ∃ d1, getStored c (d.without bad) key = .ok (d1.without bad, -1, none) ∧ J d1 ∧ d1.dev = d.dev ∧ bad ≠ [] := by
    intro h
    unfold getStored at h ⊢
    rw [hbs] at h ⊢
    simp only [Bool.false_eq_true, if_false] at h ⊢
    obtain ⟨⟨d1, r⟩, h1, h2⟩ := Res.bind_eq_ok h
    have key : splineSearch c (d.without bad) key = .ok (d1.without bad, r) ∨
        ∃ d2, splineSearch c (d.without bad) key = .ok (d2.without bad, false) ∧ J d2 ∧ d2.dev = d.dev ∧ bad ≠ [] := by
      unfold splineSearch at h1 ⊢
      obtain ⟨q, q1, q2⟩ := Res.bind_eq_ok h1
      have hq : (d.without bad).spl.find c.cmpKey key = .ok q := q1
      rw [hq, Res.ok_bind]
      by_cases h3 : q.high < d.min
      · rw [if_pos h3] at q2
        rw [if_pos (show q.high < (d.without bad).min from h3)]
        left
        cases q2
        rfl
      · rw [if_neg h3] at q2
        rw [if_neg (show ¬ q.high < (d.without bad).min from h3)]
        simp only at q2 ⊢
        have e1 : (d.without bad).min = d.min := rfl
        have e2 : (d.without bad).buffered = d.buffered := rfl
        have e3 : (d.without bad).rbuf = d.rbuf := rfl
        rw [e1, e2, e3]
        cases hb : d.buffered with
        | none =>
          rw [hb] at q2
          exact linSearch_without hJ bad key _ d _ _ _ d1 r hd q2
        | some b =>
          rw [hb] at q2
          by_cases hc : (if q.low < d.min then d.min else q.low) ≤ b ∧ q.high ≥ b ∧
              c.cmpKey (pageMinKey c d.rbuf) key ≤ 0 ∧ c.cmpKey (pageMaxKey c d.rbuf) key ≥ 0
          · simp only [decide_eq_true hc, if_true] at q2 ⊢
            left
            cases q2
            rfl
          · simp only [decide_eq_false hc, Bool.false_eq_true, if_false] at q2 ⊢
            exact linSearch_without hJ bad key _ d _ _ _ d1 r hd q2
    rcases key with h3 | ⟨d2, h3, h4, h5, h6⟩
    · left
      rw [h3, Res.ok_bind]
      cases r with
      | false =>
        simp only [Bool.false_eq_true, if_false] at h2 ⊢
        cases h2
        rfl
      | true =>
        simp only [if_true] at h2 ⊢
        obtain ⟨s, s1, s2⟩ := Res.bind_eq_ok h2
        rw [show (d1.without bad).rbuf = d1.rbuf from rfl, s1, Res.ok_bind]
        cases s <;> (cases s2; rfl)
    · right
      rw [h3, Res.ok_bind]
      exact ⟨d2, rfl, h4, h5, h6⟩
  unfold get at e ⊢
  have e1 : (d.without bad).next = d.next := rfl
  have e2 : (d.without bad).wbuf = d.wbuf := rfl
  rw [e1, e2]
  by_cases h1 : d.next = 0
  · rw [if_pos h1] at e ⊢
    exact Or.inl (hbuf e)
  · rw [if_neg h1] at e ⊢
    by_cases h2 : pageCount d.wbuf ≠ 0
    · rw [if_pos h2] at e ⊢
      by_cases h3 : key > pageMaxKey c d.wbuf
      · rw [if_pos h3] at e ⊢
        left
        cases e
        rfl
      · rw [if_neg h3] at e ⊢
        by_cases h4 : key ≥ pageMinKey c d.wbuf
        · rw [if_pos h4] at e ⊢
          exact Or.inl (hbuf e)
        · rw [if_neg h4] at e ⊢
          exact hst e
    · rw [if_neg h2] at e ⊢
      exact hst e

/-! ### Iterators -/

theorem idxSkip_without {x x' : Idx} {it : Iter} {sk : Option Bool} (bad : List Nat) (e : idxSkip c x it = .ok (x', sk)) :
    idxSkip c (x.without bad) it = .ok (x'.without bad, sk) ∨ idxSkip c (x.without bad) it = .ok (x.without bad, none) := by
  unfold idxSkip at e ⊢
  cases hq : it.qbm with
  | none => rw [hq] at e; cases e; exact Or.inl rfl
  | some q =>
    rw [hq] at e
    simp only at e ⊢
    by_cases h1 : it.slot = 0
    · rw [if_pos h1] at e ⊢
      by_cases h2 : c.useIndex = false ∨ c.maxIdx = 0
      · rw [if_pos h2] at e; cases e
      · rw [if_neg h2] at e ⊢
        by_cases h3 : x.min ≤ it.page / c.maxIdx ∧ it.page / c.maxIdx < x.next
        · rw [if_pos h3] at e
          rw [if_pos (show (x.without bad).min ≤ it.page / c.maxIdx ∧ it.page / c.maxIdx < (x.without bad).next from h3)]
          rcases readIdx_without x bad (it.page / c.maxIdx % c.numIdx) with h4 | h4
          · left
            rw [h4]
            obtain ⟨x1, r1, hr⟩ : ∃ x1 r1, readIdx x (it.page / c.maxIdx % c.numIdx) = (x1, r1) := ⟨_, _, rfl⟩
            rw [hr] at e ⊢
            cases r1 <;> (cases e; rfl)
          · right
            rw [h4]
            rfl
        · rw [if_neg h3] at e
          rw [if_neg (show ¬ ((x.without bad).min ≤ it.page / c.maxIdx ∧ it.page / c.maxIdx < (x.without bad).next) from h3)]
          cases e; exact Or.inl rfl
    · rw [if_neg h1] at e ⊢; cases e; exact Or.inl rfl

theorem idxSkip_slot {x x' : Idx} {it : Iter} (e : idxSkip c x it = .ok (x', some true)) : it.slot = 0 := by
  unfold idxSkip at e
  cases hq : it.qbm with
  | none => rw [hq] at e; cases e
  | some q =>
    rw [hq] at e
    simp only at e
    by_contra h1
    rw [if_neg h1] at e
    cases e

theorem idxSkip_again {x x' : Idx} {it : Iter} {b : Bool} (e : idxSkip c x it = .ok (x', some b)) :
    idxSkip c x' it = .ok (x', some b) := by
  have hs := idxSkip_same e
  unfold idxSkip at e ⊢
  cases hq : it.qbm with
  | none => rw [hq] at e; cases e; rfl
  | some q =>
    rw [hq] at e
    simp only at e ⊢
    by_cases h1 : it.slot = 0
    · rw [if_pos h1] at e ⊢
      by_cases h2 : c.useIndex = false ∨ c.maxIdx = 0
      · rw [if_pos h2] at e; cases e
      · rw [if_neg h2] at e ⊢
        rw [hs.min, hs.next]
        by_cases h3 : x.min ≤ it.page / c.maxIdx ∧ it.page / c.maxIdx < x.next
        · rw [if_pos h3] at e ⊢
          obtain ⟨x1, r1, hr⟩ : ∃ x1 r1, readIdx x (it.page / c.maxIdx % c.numIdx) = (x1, r1) := ⟨_, _, rfl⟩
          rw [hr] at e
          cases r1 with
          | false => cases e
          | true =>
            simp only [if_true] at e
            have hb : x1.buffered = some (it.page / c.maxIdx % c.numIdx) := by
              unfold readIdx at hr
              split_ifs at hr with hb
              · cases hr; exact hb
              · cases hf : x.dev.file (it.page / c.maxIdx % c.numIdx) with
                | none => rw [hf] at hr; cases hr
                | some p => rw [hf] at hr; cases hr; rfl
            have hx : x' = x1 := by cases e; rfl
            subst hx
            have : readIdx x' (it.page / c.maxIdx % c.numIdx) = (x', true) := by unfold readIdx; rw [if_pos hb]
            rw [this]
            simp only [if_true]
            exact e
        · rw [if_neg h3] at e ⊢; cases e; rfl
    · rw [if_neg h1] at e ⊢; cases e; rfl

/-- The outcome `r` of `embedDBNext` with failing reads, started in `(d, x, it)`: either that of the run in which no read
fails, or "no more rows" in a state from which the latter is still to come. -/
def NextMissed (c : Cfg) (J : Data → Idx → Prop) (bad badIdx : List Nat) (f : Nat) (d : Data) (x : Idx) (it : Iter)
    (d' : Data) (x' : Idx) (it' : Iter) (out : Option Rec) (r : Res (Data × Idx × Iter × Option Rec)) : Prop :=
  r = .ok (d'.without bad, x'.without badIdx, it', out) ∨
  ∃ f1 d1 x1 it1, r = .ok (d1.without bad, x1.without badIdx, it1, none) ∧
    nextLoop c f1 d1 x1 it1 = .ok (d', x', it', out) ∧ J d1 x1 ∧ SameButCache d d1 ∧ SameIdx x x1 ∧
    f1 + it1.page = f + it.page ∧ it.page ≤ it1.page ∧ it1.page ≤ d.next ∧ it1.range = it.range ∧ it1.qbm = it.qbm ∧
    (it1 = it ∨ it1.slot = 0)

theorem nextLoop_without {J : Data → Idx → Prop} (hJ : ∀ x, Readable c (fun d => J d x)) {qb : Option (List Byte)} {q : Range}
    (hS : ∀ d x it x' sk, J d x → it.qbm = qb → it.range = q → idxSkip c x it = .ok (x', sk) → J d x')
    (bad badIdx : List Nat) :
    ∀ (f : Nat) (d : Data) (x : Idx) (it : Iter) (d' : Data) (x' : Idx) (it' : Iter) (out : Option Rec), J d x →
      it.qbm = qb → it.range = q → d.min ≤ it.page → nextLoop c f d x it = .ok (d', x', it', out) →
      NextMissed c J bad badIdx f d x it d' x' it' out (nextLoop c f (d.without bad) (x.without badIdx) it) := by
  intro f
  induction f with
  | zero => intro d x it d' x' it' out _ _ _ _ e; simp [nextLoop] at e
  | succ f ih =>
    intro d x it d' x' it' out hj hqb hrg hmin e
    have e0 := e
    unfold nextLoop at e ⊢
    by_cases h1 : it.page > d.next
    · rw [if_pos h1] at e
      rw [if_pos (show it.page > (d.without bad).next from h1)]
      left
      cases e
      rfl
    rw [if_neg h1] at e
    rw [if_neg (show ¬ it.page > (d.without bad).next from h1)]
    obtain ⟨⟨x1, sk⟩, hsk, e⟩ := Res.bind_eq_ok e
    have s1 := idxSkip_same hsk
    have j1 := hS d x it x1 sk hj hqb hrg hsk
    rcases idxSkip_without badIdx hsk with hw | hw
    swap
    · right
      rw [hw, Res.ok_bind]
      exact ⟨f + 1, d, x, it, rfl, e0, hj, SameButCache.refl d, SameIdx.refl x, rfl, le_refl _, by omega, rfl, rfl, Or.inl rfl⟩
    rw [hw, Res.ok_bind]
    have go : ∀ {d1 : Data} (it2 : Iter), J d1 x1 → SameButCache d d1 → it2.page = it.page + 1 → it2.slot = 0 →
        it2.range = it.range → it2.qbm = it.qbm → nextLoop c f d1 x1 it2 = .ok (d', x', it', out) →
        NextMissed c J bad badIdx (f + 1) d x it d' x' it' out (nextLoop c f (d1.without bad) (x1.without badIdx) it2) := by
      intro d1 it2 hj1 hs1 hp hsl hr2 hq2 e2
      rcases ih d1 x1 it2 d' x' it' out hj1 (hq2.trans hqb) (hr2.trans hrg) (by rw [hs1.min]; omega) e2 with h |
        ⟨f1, d2, x2, it1, a1, a2, a3, a4, a5, a6, a7, a8, a9, a10, a11⟩
      · exact Or.inl h
      · right
        refine ⟨f1, d2, x2, it1, a1, a2, a3, hs1.trans a4, s1.trans a5, by omega, by omega, by rw [← hs1.next]; exact a8,
          a9.trans hr2, a10.trans hq2, ?_⟩
        right
        rcases a11 with rfl | h
        · exact hsl
        · exact h
    cases sk with
    | none =>
      left
      cases e
      rfl
    | some sk =>
      cases sk with
      | true => exact go { it with page := it.page + 1 } j1 (SameButCache.refl d) rfl (idxSkip_slot (it := it) hsk) rfl rfl e
      | false =>
        simp only at e ⊢
        have en : (d.without bad).next = d.next := rfl
        rw [en]
        by_cases hend : it.page = d.next
        · rw [if_pos hend] at e ⊢
          simp only [if_true] at e ⊢
          rw [en, if_pos hend]
          rw [if_pos hend] at e
          have ew : (d.without bad).wbuf = d.wbuf := rfl
          rw [ew]
          generalize recLoop c it d.wbuf (pageCount d.wbuf - it.slot) it.slot = q at e ⊢
          obtain ⟨i, o⟩ := q
          cases o with
          | none => exact go { it with page := it.page + 1, slot := 0 } j1 (SameButCache.refl d) rfl rfl rfl rfl e
          | some o =>
            left
            cases e
            rfl
        · rw [if_neg hend] at e ⊢
          have hin := hJ x1 d it.page j1 hmin (by omega)
          have hsame := readPage_same d (it.page % c.N)
          rcases readPage_without d bad (it.page % c.N) with h2 | h2
          · rw [h2]
            obtain ⟨d1, r1, hr⟩ : ∃ d1 r1, readPage d (it.page % c.N) = (d1, r1) := ⟨_, _, rfl⟩
            rw [hr] at e hin hsame ⊢
            simp only at e hin hsame ⊢
            cases r1 with
            | false =>
              left
              cases e
              rfl
            | true =>
              simp only [if_true] at e ⊢
              have en1 : (d1.without bad).next = d1.next := rfl
              rw [en1]
              have hne : ¬ it.page = d1.next := by rw [hsame.next]; exact hend
              rw [if_neg hne] at e ⊢
              have ew : (d1.without bad).rbuf = d1.rbuf := rfl
              rw [ew]
              generalize recLoop c it d1.rbuf (pageCount d1.rbuf - it.slot) it.slot = q at e ⊢
              obtain ⟨i, o⟩ := q
              cases o with
              | none => exact go { it with page := it.page + 1, slot := 0 } hin hsame rfl rfl rfl rfl e
              | some o =>
                left
                cases e
                rfl
          · right
            rw [h2]
            refine ⟨f + 1, d, x1, it, rfl, ?_, j1, SameButCache.refl d, s1, rfl, le_refl _, by omega, rfl, rfl, Or.inl rfl⟩
            unfold nextLoop at e0 ⊢
            rw [if_neg h1, idxSkip_again hsk, Res.ok_bind]
            rw [if_neg h1, hsk, Res.ok_bind] at e0
            exact e0

/-! ### Runs -/

/-- What the proof needs to know in addition: single reads of retained pages, and lookups. -/
structure Reader (c : Cfg) (K P : Nat) (I : Data → Idx → Log → Prop) (Q : Iter → Prop) : Prop where
  engine : Engine c K P I Q
  read : ∀ x L, Readable c (fun d => I d x L)
  skip : ∀ d x L it x' sk, I d x L → Q it → idxSkip c x it = .ok (x', sk) → I d x' L
  spline : c.binSearch = false
  get : ∀ d x L k, I d x L → L.pages.length ≤ P → k < K →
    ∃ d' code out, get c d k = .ok (d', code, out) ∧ I d' x L ∧ .got code out = Spec.answer (L.live d.min) k

/-- A lookup with failing reads. -/
theorem Reader.fget {P : Nat} {I : Data → Idx → Log → Prop} {Q : Iter → Prop} (E : Reader c K P I Q) {d : Data} {x : Idx}
    {k : Nat} (hI : I d x L) (hP : L.pages.length ≤ P) (hk : k < K) (bad : List Nat)
    (stp : Data → Idx → Op → Res (Data × Idx × Out)) (its : Nat → Option Iter) :
    ∃ d' o, fstep stp c d x its (.get k bad) = .ok (d', x, its, .out o) ∧ I d' x L ∧
      (o = Spec.answer (L.live d.min) k ∨ (bad ≠ [] ∧ o = .got (-1) none)) := by
  obtain ⟨d', code, out, e1, e2, e3⟩ := E.get d x L k hI hP hk
  have hs := get_same e1
  simp only [fstep]
  rcases get_without (J := fun d => I d x L) (E.read x L) E.spline bad hI e1 with h | ⟨d1, h1, h2, h3, h4⟩
  · rw [h, Res.ok_bind]
    exact ⟨d', _, by rw [Data.restore hs.dev], e2, Or.inl e3⟩
  · rw [h1, Res.ok_bind]
    exact ⟨d1, _, by rw [Data.restore h3], h2, Or.inr ⟨h4, rfl⟩⟩

/-- Advancing an iterator with failing reads. -/
theorem Reader.fnext {P : Nat} {I : Data → Idx → Log → Prop} {Q : Iter → Prop} (E : Reader c K P I Q) {d : Data} {x : Idx}
    {it : Iter} {k : Cursor} (hI : I d x L) (hk : CursorOk c K Q L it k) (hm : d.min ≤ it.page) (bad badIdx : List Nat) :
    (∃ d' x' it' out, next c d x it = .ok (d', x', it', out) ∧ d'.dev = d.dev ∧ x'.dev = x.dev ∧
      next c (d.without bad) (x.without badIdx) it = .ok (d'.without bad, x'.without badIdx, it', out)) ∨
    (∃ d1 x1 it1, next c (d.without bad) (x.without badIdx) it = .ok (d1.without bad, x1.without badIdx, it1, none) ∧
      d1.dev = d.dev ∧ x1.dev = x.dev ∧ I d1 x1 L ∧ CursorOk c K Q L it1 k ∧ ¬ (bad = [] ∧ badIdx = [])) := by
  obtain ⟨d', x', it', out, e1, e2, N⟩ := E.engine.next d x L it hI hk.keys hk.qbm hm
  have hdev := (nextLoop_same _ _ _ _ _ _ _ _ e1).dev
  have hxdev := (nextLoop_sameIdx _ _ _ _ _ _ _ _ e1).dev
  by_cases hbad : bad = [] ∧ badIdx = []
  · left
    rw [hbad.1, hbad.2]
    refine ⟨d', x', it', out, e1, hdev, hxdev, ?_⟩
    rw [Data.without_nil, Idx.without_nil, Data.without_nil, Idx.without_nil]
    exact e1
  rcases nextLoop_without (J := fun d x => I d x L) (fun x => E.read x L) (qb := it.qbm) (q := it.range)
      (fun d x it2 x' sk h hq hr e => E.skip d x L it2 x' sk h (E.engine.keep it it2 hk.qbm hr hq) e) bad badIdx _ d x it d' x' it'
      out hI rfl rfl hm e1 with h | ⟨f1, d1, x1, it1, a1, a2, a3, a4, a5, a6, a7, a8, a9, a10, a11⟩
  · exact Or.inl ⟨d', x', it', out, e1, hdev, hxdev, h⟩
  · right
    refine ⟨d1, x1, it1, a1, a4.dev, a5.dev, a3, ?_, hbad⟩
    have hq1 : Q it1 := E.engine.keep it it1 hk.qbm a9 a10
    have hk1 : KeysOk K it1.range := by rw [a9]; exact hk.keys
    have hf : f1 = d1.next + 1 - it1.page + 1 := by rw [a4.next]; omega
    obtain ⟨d2, x2, it2, out2, b1, b2, N1⟩ := E.engine.next d1 x1 L it1 a3 hk1 hq1 (by rw [a4.min]; omega)
    have b1' : nextLoop c f1 d1 x1 it1 = .ok (d2, x2, it2, out2) := by rw [hf]; exact b1
    rw [a2] at b1'
    cases b1'
    -- both runs end in the same place with the same result, so the same rows are to come
    have same : Spec.scan c.cmpData it.range (rest L it1.page it1.slot) = Spec.scan c.cmpData it.range (rest L it.page it.slot) := by
      cases out with
      | none =>
        obtain ⟨q1, -⟩ := N.done rfl
        obtain ⟨q3, -⟩ := N1.done rfl
        rw [a9] at q3
        unfold Spec.scan
        rw [List.filter_eq_nil_iff.mpr (fun y hy => by rw [q3 y hy]; simp),
          List.filter_eq_nil_iff.mpr (fun y hy => by rw [q1 y hy]; simp)]
      | some r =>
        obtain ⟨pre, p1, p2, p3⟩ := N.found r rfl
        obtain ⟨pre1, r1, r2, r3⟩ := N1.found r rfl
        rw [a9] at r2 r3
        rw [p1, r1]
        have hpre : Spec.scan c.cmpData it.range pre = [] := List.filter_eq_nil_iff.mpr (fun y hy => by rw [p3 y hy]; simp)
        have hpre1 : Spec.scan c.cmpData it.range pre1 = [] := List.filter_eq_nil_iff.mpr (fun y hy => by rw [r3 y hy]; simp)
        rw [scan_append, scan_append, hpre, hpre1]
    have hn := E.engine.page d x L hI
    rw [hk.range] at same
    refine ⟨hk1, hq1, a9.trans hk.range, by have := hk.pos; omega, ?_, ?_⟩
    · intro ho
      obtain ⟨l1, l2, l3⟩ := hk.live ho
      refine ⟨same.trans l1, by omega, ?_⟩
      rcases a11 with rfl | h
      · exact l3
      · intro _; omega
    · intro ho
      rw [same]
      exact hk.over ho

/-- Along the run every operation satisfies `g`. -/
def FSafe (g : Data → Idx → Op → Prop) (stp : Data → Idx → Op → Res (Data × Idx × Out)) (c : Cfg) :
    Data → Idx → (Nat → Option Iter) → List FOp → Prop
  | _, _, _, [] => True
  | d, x, its, op :: ops => (∀ o, op.base = .op o → g d x o) ∧
    ∀ d' x' its' out, fstep stp c d x its op = .ok (d', x', its', out) → FSafe g stp c d' x' its' ops

theorem fault_ok {P : Nat} {stp : Data → Idx → Op → Res (Data × Idx × Out)} {I : Data → Idx → Log → Prop} {Q : Iter → Prop}
    (E : Reader c K P I Q) {limit : Log → Prop} {oldest : Log → Nat}
    (hold : ∀ d x L, I d x L → limit L → d.min = oldest L)
    {G : Data → Idx → (Nat → Option Iter) → List FOp → Prop}
    (hop : ∀ d x L its o (ops : List FOp), I d x L → limit L → L.pages.length + 1 ≤ P →
      MClient c lo K (.op o :: ops.map FOp.base) →
      (∀ r ∈ L.all, ∀ k ∈ Spec.offered (Spec.plainOps (.op o :: ops.map FOp.base)), r.1 < k) →
      G d x its (.plain (.op o) :: ops) →
      limit (after c.maxRec L o) → ∃ d' x' out, stp d x o = .ok (d', x', out) ∧ OpGood c I L d.min d' x' out o)
    (hG : ∀ d x L its op ops d' x' its' out, I d x L → G d x its (op :: ops) →
      fstep stp c d x its op = .ok (d', x', its', out) → G d' x' its' ops) :
    ∀ (ops : List FOp) (d : Data) (x : Idx) (L : Log) (its : Nat → Option Iter) (cs : Nat → Option Cursor), I d x L →
      limit L → L.pages.length + ops.length ≤ P → MClient c lo K (ops.map FOp.base) →
      (∀ r ∈ L.all, ∀ k ∈ Spec.offered (Spec.plainOps (ops.map FOp.base)), r.1 < k) → G d x its ops →
      CursorsOk c K Q L its cs →
      Spec.FaultRun limit oldest c.maxRec c.cmpData L cs (fhistory stp c d x its ops) := by
  intro ops
  induction ops with
  | nil => intros; exact trivial
  | cons op ops ih =>
    intro d x L its cs hI hl hP hC hgt g hcs
    rw [List.length_cons] at hP
    rw [List.map_cons] at hC hgt
    have ho := hold d x L hI hl
    have cont : ∀ {d' x' its' out L' cs'}, fstep stp c d x its op = .ok (d', x', its', out) → I d' x' L' → limit L' →
        CursorsOk c K Q L' its' cs' → (L' = L ∨ ∃ o, op.base = .op o ∧ L' = after c.maxRec L o) →
        Spec.FaultRun limit oldest c.maxRec c.cmpData L' cs' (fhistory stp c d' x' its' ops) := by
      intro d' x' its' out L' cs' e hI' hl' hcs' hL'
      exact ih d' x' L' its' cs' hI' hl' (by have := after_pages hL'; omega) hC.tail (after_ascending hC hgt hL')
        (hG _ _ _ _ _ _ _ _ _ _ hI g e) hcs'
    unfold fhistory
    cases op with
    | plain o =>
      have main : ∀ {R : Log → (Nat → Option Cursor) → Prop}, _ → _ := fun {R} h =>
        mixed_step (R := R) (op := o) (stp := stp) E.engine hI hl (by omega) ho
          (by rintro o' rfl; exact hop d x L its o' ops hI hl (by omega) hC hgt g)
          (by rintro i q rfl; exact hC.opn i q (by simp [FOp.base])) hcs h
      cases e : fstep stp c d x its (.plain o) with
      | ok r =>
        obtain ⟨d', x', its', out⟩ := r
        have := main (R := fun L' cs' => Spec.FaultRun limit oldest c.maxRec c.cmpData L' cs' (fhistory stp c d' x' its' ops)) ?_
        · have e' : mstep stp c d x its o = .ok (d', x', its', out) := e
          rw [e'] at this
          exact Or.inl this
        · intro d2 x2 its2 out2 L' cs' e2 hI' hl' hcs' hL'
          have e2' : fstep stp c d x its (.plain o) = .ok (d2, x2, its2, out2) := e2
          have := cont e2' hI' hl' hcs' hL'
          rw [e] at e2'
          cases e2'
          exact this
      | ub =>
        have := main (R := fun _ _ => True) (fun _ _ _ _ _ _ _ _ _ _ _ => trivial)
        have e' : mstep stp c d x its o = .ub := e
        rw [e'] at this
        exact Or.inl this
      | fuel =>
        have := main (R := fun _ _ => True) (fun _ _ _ _ _ _ _ _ _ _ _ => trivial)
        have e' : mstep stp c d x its o = .fuel := e
        rw [e'] at this
        exact Or.inl this
    | get k bad =>
      have hk : k < K := hC.plain.get k (by simp [FOp.base, Spec.plainOps])
      obtain ⟨d', o, e1, e2, e3⟩ := E.fget hI (by omega) hk bad stp its
      rw [e1]
      have := cont e1 e2 hl hcs (Or.inl rfl)
      rcases e3 with rfl | ⟨e3, rfl⟩
      · left
        exact ⟨by rw [ho], this⟩
      · right
        refine ⟨?_, rfl, this⟩
        simp only [FOp.failing]
        cases bad with
        | nil => exact absurd rfl e3
        | cons a t => rfl
    | nxt i bad badIdx =>
      -- the specification says nothing about this call?
      by_cases hci : ∃ k, cs i = some k ∧ oldest L ≤ k.pos
      swap
      · have vac : ∀ (o : Option MOut) (R : Log → (Nat → Option Cursor) → Prop),
            Spec.MixStep limit oldest c.maxRec c.cmpData L cs o R (.nxt i) :=
          fun o R k hk hpos => absurd ⟨k, hk, hpos⟩ hci
        cases fstep stp c d x its (.nxt i bad badIdx) <;> exact Or.inl (vac _ _)
      obtain ⟨k, hci, hpos⟩ := hci
      obtain ⟨it, hit, hk⟩ := hcs i k hci
      have hp := hk.pos
      have hst : ∀ {dd xx ii oo}, next c (d.without bad) (x.without badIdx) it = .ok (dd, xx, ii, oo) →
          fstep stp c d x its (.nxt i bad badIdx) =
            .ok ({ dd with dev := d.dev }, { xx with dev := x.dev }, setAt its i (some ii), .row oo) := by
        intro dd xx ii oo h
        simp only [fstep]
        rw [hit]
        simp only
        rw [h, Res.ok_bind]
      rcases E.fnext hI hk (by omega) bad badIdx with ⟨d', x', it', out, e1, e2, e3, e4⟩ | ⟨d1, x1, it1, e1, e2, e3, e4, e5, hbad⟩
      · have hf := hst e4
        rw [Data.restore e2, Idx.restore e3] at hf
        rw [hf]
        have e : mstep stp c d x its (.nxt i) = .ok (d', x', setAt its i (some it'), .row out) := by
          simp only [mstep]; rw [hit]; simp only; rw [e1]; rfl
        have := mixed_step (R := fun L' cs' => Spec.FaultRun limit oldest c.maxRec c.cmpData L' cs'
            (fhistory stp c d' x' (setAt its i (some it')) ops)) (op := .nxt i) (stp := stp) E.engine hI hl (by omega) ho
          (by intro o h; cases h) (by intro i q h; cases h) hcs ?_
        · rw [e] at this
          exact Or.inl this
        · intro d2 x2 its2 out2 L' cs' e2 hI' hl' hcs' hL'
          rw [e] at e2
          cases e2
          exact cont hf hI' hl' hcs' hL'
      · have hf := hst e1
        rw [Data.restore e2, Idx.restore e3] at hf
        rw [hf]
        right
        refine ⟨?_, rfl, cont hf e4 hl ?_ (Or.inl rfl)⟩
        · simp only [FOp.failing]
          cases bad with
          | nil =>
            cases badIdx with
            | nil => exact absurd ⟨rfl, rfl⟩ hbad
            | cons a t => rfl
          | cons a t => rfl
        · have := hcs.set (i := i) (it := it1) e5
          have hsame : setAt cs i (some k) = cs := by
            funext j
            unfold setAt
            split_ifs with h
            · rw [h, hci]
            · rfl
          rwa [hsame] at this

/-! ### The two kinds of tables -/

theorem table_readable (hok : c.Ok K) : Readable c (fun d => TableM c lo K m d L) := by
  intro d l T h1 h2
  obtain ⟨d', e1, e2, e3, -⟩ := T.sim.readPage hok.N0 h1 h2
  rw [e1]
  exact T.congr e2 e3

theorem table_h255 {d : Data} (T : TableM c lo K m d L) (h255 : c.maxRec ≤ 255) : ∀ i, i < L.buf.length → i % 256 ≠ 255 := by
  intro i hi
  have := T.cap.2
  omega

theorem reader_plain (hok : c.Ok K) {P : Nat} (hB : Bounds c lo K P) (hbm : c.useBmap = false) (h255 : c.maxRec ≤ 255) :
    Reader c K P (fun d _ L => Table c lo K d L) (fun it => it.qbm = none) where
  engine := engine_plain hok hB hbm
  read _ _ := table_readable hok
  skip d x L it x' sk h _ _ := h
  spline := hok.spline
  get d x L k T hP hk := by
    obtain ⟨d', code, out, e1, e2, e3, e4⟩ := get_ok hok.cmp hok.N0 hB hok.spline hk T.sim (by rw [T.sim.next]; exact hP)
      (table_h255 T h255)
    exact ⟨d', code, out, e1, T.congr e2 e3, answer_of e4⟩

theorem reader_index (hok : c.Ok K) (hx : c.IdxOk) {P : Nat} (hB : Bounds c lo K P) (h255 : c.maxRec ≤ 255) :
    Reader c K P (fun d x L => TableX c lo K 0 d x L ∧ Aligned c x d.next) (QbmOk c) where
  engine := engine_index hok hx hB
  read x L := by
    intro d l h h1 h2
    have e := readPage_same d (l % c.N)
    refine ⟨⟨table_readable hok d l h.1.table h1 h2, h.1.idx, by rw [e.wbuf]; exact h.1.hdr⟩, ?_⟩
    rw [e.next]
    exact h.2
  skip d x L it x' sk h hq e := by
    obtain ⟨x2, sk2, e1, e2, -⟩ := h.1.idx.skip hx hok.B0 hq
    have hs := idxSkip_same e
    rw [e] at e1
    cases e1
    exact ⟨⟨h.1.table, e2, h.1.hdr⟩, hs.aligned h.2⟩
  spline := hok.spline
  get d x L k h hP hk := by
    obtain ⟨d', code, out, e1, e2, e3, e4⟩ := get_ok hok.cmp hok.N0 hB hok.spline hk h.1.table.sim
      (by rw [h.1.table.sim.next]; exact hP) (table_h255 h.1.table h255)
    refine ⟨d', code, out, e1, ⟨⟨h.1.table.congr e2 e3, h.1.idx, by rw [e2.wbuf]; exact h.1.hdr⟩, ?_⟩, answer_of e4⟩
    rw [e2.next]
    exact h.2

end
end EDB
