import Verif.Proofs.Always
import Verif.Spec.Bisect

/-! Helper lemmas: `binarySearch` over the pages of a table. -/

namespace EDB

open Spec (Log Inspected)

theorem inspected_iff {first last t : Nat} : Inspected first last t ↔ first < last ∧
    (t = (first + last) / 2 ∨ (t < (first + last) / 2 ∧ Inspected first ((first + last) / 2 - 1) t) ∨
      ((first + last) / 2 < t ∧ Inspected ((first + last) / 2 + 1) last t)) := by
  constructor
  · intro h
    cases h with
    | here h => exact ⟨h, Or.inl rfl⟩
    | left h h1 h2 => exact ⟨h, Or.inr (Or.inl ⟨h1, h2⟩)⟩
    | right h h1 h2 => exact ⟨h, Or.inr (Or.inr ⟨h1, h2⟩)⟩
  · rintro ⟨h, rfl | ⟨h1, h2⟩ | ⟨h1, h2⟩⟩
    · exact .here h
    · exact .left h h1 h2
    · exact .right h h1 h2

/-- Every interval has a position that is never inspected. -/
theorem exists_not_inspected : ∀ (n first last : Nat), last - first ≤ n → first ≤ last →
    ∃ t, first ≤ t ∧ t ≤ last ∧ ¬ Inspected first last t := by
  intro n
  induction n with
  | zero =>
    intro first last h1 h2
    refine ⟨first, le_refl _, h2, ?_⟩
    rw [inspected_iff]
    omega
  | succ n ih =>
    intro first last h1 h2
    by_cases h : first < last
    · obtain ⟨t, t1, t2, t3⟩ := ih ((first + last) / 2 + 1) last (by omega) (by omega)
      refine ⟨t, by omega, t2, ?_⟩
      rw [inspected_iff]
      rintro ⟨-, h | ⟨h, -⟩ | ⟨-, h⟩⟩
      · omega
      · omega
      · exact t3 h
    · refine ⟨first, le_refl _, h2, ?_⟩
      rw [inspected_iff]
      omega

section
variable {c : Cfg} {lo K a : Nat} {L : Log}

/-- Where a key lies relative to a live page that was read. -/
theorem page_side {d d1 : Data} (S : Sim c lo K a d L) (hc : CmpOk c.cmpKey K) {key : Nat} (hk : key < K) {q : Nat}
    (hql : q < L.pages.length) (hrec : recs c d1.rbuf = L.pages.getD q []) :
    (c.cmpKey key (pageMinKey c d1.rbuf) < 0 ↔ ∀ r ∈ L.pages[q], key < r.1) ∧
    (c.cmpKey key (pageMaxKey c d1.rbuf) > 0 ↔ ∀ r ∈ L.pages[q], r.1 < key) := by
  have hg := getD_page hql
  have hne : L.pages.getD q [] ≠ [] := by rw [hg]; exact S.full _ (List.getElem_mem hql)
  have hsp : SortedPage c K d1.rbuf := S.sortedPage hql (by rw [hrec, hg])
  obtain ⟨rmin, hrm, emin⟩ := minKey_mem hrec hne
  obtain ⟨rmax, hrx, emax⟩ := maxKey_mem hrec hne
  rw [hg] at hrm hrx
  have kmin : pageMinKey c d1.rbuf < K := by rw [← emin]; exact (S.bound _ (mem_all_page hql hrm)).2
  have kmax : pageMaxKey c d1.rbuf < K := by rw [← emax]; exact (S.bound _ (mem_all_page hql hrx)).2
  rw [hc.lt _ _ hk kmin, hc.pos hk kmax]
  constructor
  · constructor
    · intro h r hr
      rw [← hg, ← hrec] at hr
      have := minKey_le hsp hr
      omega
    · intro h
      have := h _ hrm
      omega
  · constructor
    · intro h r hr
      rw [← hg, ← hrec] at hr
      have := le_maxKey hsp hr
      omega
    · intro h
      have := h _ hrx
      omega

/-- The key lies in the range of page `t`. -/
theorem binLoop_hit (hc : CmpOk c.cmpKey K) (hN : 0 < c.N) {key : Nat} (hk : key < K) {t : Nat} (ht : InRange L t key) :
    ∀ (f : Nat) (d : Data) (first last : Nat), Sim c lo K a d L → d.min ≤ first → first ≤ t → t ≤ last →
    last < d.next → last - first < 2 ^ f → last < 2 ^ 31 → ∀ g, f < g →
    (Inspected first last t ∧ ∃ d', binSearchLoop c key g d first last ((first + last) / 2) = .ok (d', true) ∧
      SameButCache d d' ∧ Sim c lo K a d' L ∧ recs c d'.rbuf = L.pages.getD t []) ∨
    (¬ Inspected first last t ∧ binSearchLoop c key g d first last ((first + last) / 2) = .ub) := by
  intro f
  induction f with
  | zero =>
    intro d first last S h1 h2 h3 h4 h5 h6 g hg
    right
    obtain ⟨g, rfl⟩ : ∃ g', g = g' + 1 := ⟨g - 1, by omega⟩
    refine ⟨by rw [inspected_iff]; omega, ?_⟩
    unfold binSearchLoop
    obtain ⟨d1, hr, -⟩ := S.readPage hN (l := (first + last) / 2) (by omega) (by omega)
    rw [hr]
    simp only [if_true]
    rw [if_pos (by omega)]
  | succ f ih =>
    intro d first last S h1 h2 h3 h4 h5 h6 g hg
    obtain ⟨g, rfl⟩ : ∃ g', g = g' + 1 := ⟨g - 1, by omega⟩
    rw [inspected_iff]
    unfold binSearchLoop
    obtain ⟨d1, hr, hE, S1, -, hrec, -⟩ := S.readPage hN (l := (first + last) / 2) (by omega) (by omega)
    rw [hr]
    simp only [if_true]
    by_cases hfl : first ≥ last
    · right
      rw [if_pos hfl]
      exact ⟨by omega, rfl⟩
    rw [if_neg hfl]
    have hn := S.next
    have hql : (first + last) / 2 < L.pages.length := by omega
    obtain ⟨s1, s2⟩ := page_side S hc hk hql hrec
    have hne := S.full _ (List.getElem_mem hql)
    obtain ⟨⟨x, x1, x2⟩, ⟨y, y1, y2⟩⟩ := ht
    have htl : t < L.pages.length := by omega
    rw [getD_page htl] at x1 y1
    rw [Nat.pow_succ] at h5
    generalize hmid : (first + last) / 2 = mid at *
    have hm1 : first ≤ mid := by omega
    have hm2 : mid < last := by omega
    have em : (first + mid.pred) % 2 ^ 32 = first + mid.pred := Nat.mod_eq_of_lt (by simp only [Nat.pred_eq_sub_one]; omega)
    rcases Nat.lt_trichotomy t mid with h | h | h
    · -- to the left
      have : ∀ r ∈ L.pages[mid], key < r.1 := by
        intro r hr
        have := Log_pages_sorted S.sorted h hql y y1 r hr
        omega
      rw [if_pos (s1.mpr this)]
      have e1 : u32sub mid 1 = mid - 1 := by unfold u32sub; rw [if_pos (by omega)]
      rw [e1, Nat.mod_eq_of_lt (show first + (mid - 1) < 2 ^ 32 by omega)]
      rcases ih d1 first (mid - 1) S1 (by rw [hE.min]; exact h1) h2 (by omega) (by rw [hE.next]; omega) (by omega)
        (by omega) g (by omega) with ⟨i1, d2, j1, j2, j3, j4⟩ | ⟨i1, j1⟩
      · left
        exact ⟨⟨by omega, Or.inr (Or.inl ⟨h, i1⟩)⟩, d2, j1, hE.trans j2, j3, j4⟩
      · right
        refine ⟨?_, j1⟩
        rintro ⟨-, hh | ⟨-, hh⟩ | ⟨hh, -⟩⟩
        · omega
        · exact i1 hh
        · omega
    · subst h
      left
      rw [if_neg (by rw [s1]; intro hh; have := hh x x1; omega),
        if_neg (by rw [s2]; intro hh; have := hh y y1; omega)]
      exact ⟨⟨by omega, Or.inl rfl⟩, d1, rfl, hE, S1, hrec⟩
    · have : ∀ r ∈ L.pages[mid], r.1 < key := by
        intro r hr
        have := Log_pages_sorted S.sorted h htl r hr x x1
        omega
      have hno : ¬ ∀ r ∈ L.pages[mid], key < r.1 := by
        intro hh
        have a1 := hh _ (List.head_mem hne)
        have a2 := this _ (List.head_mem hne)
        omega
      rw [if_neg (by rw [s1]; exact hno), if_pos (s2.mpr this)]
      rw [Nat.mod_eq_of_lt (show mid + 1 + last < 2 ^ 32 by omega)]
      rcases ih d1 (mid + 1) last S1 (by rw [hE.min]; omega) (by omega) h3 (by rw [hE.next]; omega) (by omega)
        (by omega) g (by omega) with ⟨i1, d2, j1, j2, j3, j4⟩ | ⟨i1, j1⟩
      · left
        exact ⟨⟨by omega, Or.inr (Or.inr ⟨h, i1⟩)⟩, d2, j1, hE.trans j2, j3, j4⟩
      · right
        refine ⟨?_, j1⟩
        rintro ⟨-, hh | ⟨hh, -⟩ | ⟨-, hh⟩⟩
        · omega
        · omega
        · exact i1 hh

/-- Storage pages that were never written. -/
def Unwritten (c : Cfg) (d : Data) : Prop := d.min = 0 → ∀ i, d.next ≤ i → i < c.N → d.dev.file i = none

/-- A search that found nothing: it returned -1, or it fell off the end. -/
def Missed (c : Cfg) (lo K a : Nat) (L : Log) (d : Data) (r : Res (Data × Bool)) : Prop :=
  r = .ub ∨ ∃ d', r = .ok (d', false) ∧ SameButCache d d' ∧ Sim c lo K a d' L

/-- After `last` wrapped around to 2^32 - 1. -/
theorem binLoop_under (hc : CmpOk c.cmpKey K) (hN : 0 < c.N) {key : Nat} (hk : key < K)
    (hlow : ∀ pg ∈ L.pages, ∀ r ∈ pg, key < r.1) :
    ∀ (f : Nat) (d : Data) (last : Nat), Sim c lo K a d L → d.min = 0 → Unwritten c d → (f = 0 → last = 0) →
    f ≤ 31 → ∀ g, f < g → Missed c lo K a L d (binSearchLoop c key g d 0 last (2 ^ f - 1)) := by
  intro f
  induction f with
  | zero =>
    intro d last S hm hu hl h31 g hg
    obtain ⟨g, rfl⟩ : ∃ g', g = g' + 1 := ⟨g - 1, by omega⟩
    unfold binSearchLoop
    cases hr : readPage d ((2 ^ 0 - 1) % c.N) with
    | mk d1 b =>
      cases b with
      | false =>
        right
        refine ⟨d1, rfl, ?_, ?_⟩
        · have := readPage_same d ((2 ^ 0 - 1) % c.N); rw [hr] at this; exact this
        · have : d1 = d := by
            unfold readPage at hr
            split_ifs at hr
            · cases hr
            · split at hr <;> cases hr
              rfl
          rw [this]; exact S
      | true =>
        left
        simp only [if_true]
        rw [if_pos (by rw [hl rfl])]
  | succ f ih =>
    intro d last S hm hu hl h31 g hg
    obtain ⟨g, rfl⟩ : ∃ g', g = g' + 1 := ⟨g - 1, by omega⟩
    unfold binSearchLoop
    have hw := S.window
    have hn := S.next
    have hlt := Nat.mod_lt (2 ^ (f + 1) - 1) hN
    by_cases hq : (2 ^ (f + 1) - 1) % c.N < d.next
    · obtain ⟨d1, hr, hE, S1, -, hrec, -⟩ := S.readPage hN (l := (2 ^ (f + 1) - 1) % c.N) (by omega) hq
      rw [Nat.mod_mod] at hr
      rw [hr]
      simp only [if_true]
      by_cases h0 : (0 : Nat) ≥ last
      · left; rw [if_pos h0]
      · rw [if_neg h0]
        obtain ⟨s1, -⟩ := page_side S hc hk (by omega) hrec
        rw [if_pos (s1.mpr (hlow _ (List.getElem_mem _)))]
        have hp : 2 ^ (f + 1) = 2 ^ f + 2 ^ f := by rw [Nat.pow_succ]; omega
        have hf0 : 0 < 2 ^ f := Nat.pow_pos (by decide)
        have e1 : u32sub (2 ^ (f + 1) - 1) 1 = 2 ^ (f + 1) - 2 := by unfold u32sub; rw [if_pos (by omega)]; rfl
        have h32 : 2 ^ (f + 1) ≤ 2 ^ 32 := Nat.pow_le_pow_right (by decide) (by omega)
        have e2 : (0 + (2 ^ (f + 1) - 2)) % 2 ^ 32 / 2 = 2 ^ f - 1 := by
          rw [Nat.mod_eq_of_lt (by omega)]; omega
        rw [e1, e2]
        rcases ih d1 (2 ^ (f + 1) - 2) S1 (by rw [hE.min]; exact hm) (by
            intro _ i; rw [hE.next, hE.dev]; exact hu hm i) (by rintro rfl; rfl) (by omega) g (by omega) with h | ⟨d2, j1, j2, j3⟩
        · left; exact h
        · right; exact ⟨d2, j1, hE.trans j2, j3⟩
    · right
      have hf : d.dev.file ((2 ^ (f + 1) - 1) % c.N) = none := hu hm _ (by omega) hlt
      have hb : d.buffered ≠ some ((2 ^ (f + 1) - 1) % c.N) := by
        intro h
        have := (S.cacheN _ h).2
        omega
      refine ⟨d, ?_, SameButCache.refl d, S⟩
      unfold readPage
      rw [if_neg hb, hf]
      simp

theorem binLoop_empty {d : Data} (S : Sim c lo K a d L) {key first last p g : Nat} (h : first ≥ last) (hg : 0 < g) :
    Missed c lo K a L d (binSearchLoop c key g d first last p) := by
  obtain ⟨g, rfl⟩ : ∃ g', g = g' + 1 := ⟨g - 1, by omega⟩
  unfold binSearchLoop
  cases hr : readPage d (p % c.N) with
  | mk d1 b =>
    cases b with
    | false =>
      right
      refine ⟨d1, rfl, ?_, ?_⟩
      · have := readPage_same d (p % c.N); rw [hr] at this; exact this
      · have : d1 = d := by
          unfold readPage at hr
          split_ifs at hr
          · cases hr
          · split at hr <;> cases hr
            rfl
        rw [this]; exact S
    | true =>
      left
      simp only [if_true]
      rw [if_pos h]

/-- The key lies in the range of no page. -/
theorem binLoop_miss (hc : CmpOk c.cmpKey K) (hN : 0 < c.N) {key : Nat} (hk : key < K) :
    ∀ (f : Nat) (d : Data) (first last : Nat), Sim c lo K a d L → Unwritten c d →
    (∀ l, d.min ≤ l → l < d.next → ¬ InRange L l key) → d.min ≤ first → first ≤ last → last < d.next →
    last - first < 2 ^ f → last < 2 ^ 31 → ∀ g, f + 33 < g →
    Missed c lo K a L d (binSearchLoop c key g d first last ((first + last) / 2)) := by
  intro f
  induction f with
  | zero =>
    intro d first last S hu hno h1 h2 h4 h5 h6 g hg
    exact binLoop_empty S (by omega) (by omega)
  | succ f ih =>
    intro d first last S hu hno h1 h2 h4 h5 h6 g hg
    by_cases hfl : first ≥ last
    · exact binLoop_empty S hfl (by omega)
    obtain ⟨g, rfl⟩ : ∃ g', g = g' + 1 := ⟨g - 1, by omega⟩
    unfold binSearchLoop
    obtain ⟨d1, hr, hE, S1, -, hrec, -⟩ := S.readPage hN (l := (first + last) / 2) (by omega) (by omega)
    rw [hr]
    simp only [if_true]
    rw [if_neg hfl]
    have hn := S.next
    have hql : (first + last) / 2 < L.pages.length := by omega
    obtain ⟨s1, s2⟩ := page_side S hc hk hql hrec
    have hne := S.full _ (List.getElem_mem hql)
    have hu1 : Unwritten c d1 := by
      intro hm i; rw [hE.next, hE.dev]; rw [hE.min] at hm; exact hu hm i
    have hno1 : ∀ l, d1.min ≤ l → l < d1.next → ¬ InRange L l key := by rw [hE.min, hE.next]; exact hno
    rw [Nat.pow_succ] at h5
    have lift : ∀ r, Missed c lo K a L d1 r → Missed c lo K a L d r := by
      rintro r (h | ⟨d2, j1, j2, j3⟩)
      · exact Or.inl h
      · exact Or.inr ⟨d2, j1, hE.trans j2, j3⟩
    apply lift
    have hout := hno ((first + last) / 2) (by omega) (by omega)
    generalize hmid : (first + last) / 2 = mid at *
    have hm1 : first ≤ mid := by omega
    have hm2 : mid < last := by omega
    by_cases hlt : ∀ r ∈ L.pages[mid], key < r.1
    · rw [if_pos (s1.mpr hlt)]
      by_cases h0 : mid = 0
      · subst h0
        have hf0 : first = 0 := by omega
        have hmin : d.min = 0 := by omega
        rw [hf0]
        have e : (0 + u32sub 0 1) % 2 ^ 32 / 2 = 2 ^ 31 - 1 := by decide
        rw [e]
        refine binLoop_under hc hN hk ?_ 31 d1 _ S1 (by rw [hE.min]; exact hmin) hu1 (by omega) (le_refl _) g (by omega)
        intro pg hpg r hr
        obtain ⟨i, hi, rfl⟩ := List.mem_iff_getElem.mp hpg
        rcases Nat.eq_zero_or_pos i with h | h
        · subst h; exact hlt r hr
        · have a1 := Log_pages_sorted S.sorted h hi _ (List.head_mem hne) r hr
          have a2 := hlt _ (List.head_mem hne)
          omega
      · have e1 : u32sub mid 1 = mid - 1 := by unfold u32sub; rw [if_pos (by omega)]
        rw [e1, Nat.mod_eq_of_lt (show first + (mid - 1) < 2 ^ 32 by omega)]
        by_cases hfm : first ≤ mid - 1
        · exact ih d1 first (mid - 1) S1 hu1 hno1 (by rw [hE.min]; exact h1) hfm (by rw [hE.next]; omega) (by omega)
            (by omega) g (by omega)
        · exact binLoop_empty S1 (by omega) (by omega)
    · rw [if_neg (by rw [s1]; exact hlt)]
      have hgt : ∀ r ∈ L.pages[mid], r.1 < key := by
        intro r hr
        by_contra hcon
        apply hlt
        intro r' hr'
        by_contra hcon'
        apply hout
        rw [InRange, getD_page hql]
        exact ⟨⟨r', hr', by omega⟩, ⟨r, hr, by omega⟩⟩
      rw [if_pos (s2.mpr hgt), Nat.mod_eq_of_lt (show mid + 1 + last < 2 ^ 32 by omega)]
      exact ih d1 (mid + 1) last S1 hu1 hno1 (by rw [hE.min]; omega) (by omega) (by rw [hE.next]; exact h4) (by omega)
        (by omega) g (by omega)

/-! ### Lookups -/

/-- No stored page can hold the key and neither does the buffer. -/
theorem lookup_none {d : Data} (S : Sim c lo K a d L) {key : Nat} (hbuf : ∀ r ∈ L.buf, r.1 ≠ key)
    (h : ∀ l : Nat, d.min ≤ l → l < d.next → ∀ r ∈ L.pages.getD l [], r.1 ≠ key) :
    Spec.lookup (L.live d.min) key = none := by
  rw [lookup_eq_none]
  intro r hr hrk
  rcases mem_live.mp hr with ⟨l, hl, hm, hrl⟩ | hr
  · exact h l hm (by rw [S.next]; exact hl) r (by rw [getD_page hl]; exact hrl) hrk
  · exact hbuf r hr hrk

theorem getStored_hit (hc : CmpOk c.cmpKey K) (hN : 0 < c.N) (hbs : c.binSearch = true) {key : Nat} (hk : key < K)
    {d : Data} (S : Sim c lo K a d L) (h31 : d.next ≤ 2 ^ 31) (hbuf : ∀ r ∈ L.buf, r.1 ≠ key) {t : Nat}
    (h1 : d.min ≤ t) (h2 : t < d.next) (ht : InRange L t key) :
    (Inspected d.min (d.next - 1) t ∧ ∃ d' code out, getStored c d key = .ok (d', code, out) ∧ SameButCache d d' ∧
      Sim c lo K a d' L ∧ Answer (L.live d.min) key code out) ∨
    (¬ Inspected d.min (d.next - 1) t ∧ getStored c d key = .ub) := by
  have hlive := S.live (by omega)
  have hn := S.next
  have e32 : (d.min + (d.next - 1)) % 2 ^ 32 = d.min + (d.next - 1) := Nat.mod_eq_of_lt (by omega)
  unfold getStored
  rw [if_pos hbs]
  unfold binPageSearch
  rw [e32]
  rcases binLoop_hit hc hN hk ht 31 d d.min (d.next - 1) S (le_refl _) h1 (by omega) (by omega) (by omega) (by omega) 80
    (by omega) with ⟨i1, d', j1, j2, j3, j4⟩ | ⟨i1, j1⟩
  · left
    refine ⟨i1, ?_⟩
    rw [j1, Res.ok_bind]
    have htl : t < L.pages.length := by omega
    have hg := getD_page htl
    obtain ⟨⟨x, x1, x2⟩, ⟨y, y1, y2⟩⟩ := ht
    rw [hg] at j4 x1 y1
    have hs := S.sortedPage htl j4
    obtain ⟨r, hr, hcase⟩ := searchNode_recs hc hs hk
    simp only [if_true]
    rw [hr, Res.ok_bind]
    rcases hcase with ⟨i, rfl, hi, hmem⟩ | ⟨rfl, hno⟩
    · refine ⟨d', 0, _, rfl, j2, j3, Or.inl ⟨_, ?_, rfl, rfl⟩⟩
      rw [lookup_eq_some (Log_live_sorted S.sorted d.min)]
      exact mem_live.mpr (Or.inl ⟨t, htl, h1, by rw [← j4]; exact hmem⟩)
    · refine ⟨d', -1, none, rfl, j2, j3, Or.inr ⟨?_, rfl, rfl⟩⟩
      apply lookup_none S hbuf
      intro l l1 l2 r h3 h4
      have hll : l < L.pages.length := by omega
      rw [getD_page hll] at h3
      rcases Nat.lt_trichotomy l t with h | h | h
      · have := Log_pages_sorted S.sorted h htl _ h3 _ x1
        omega
      · subst h
        rw [← j4] at h3
        exact hno r h3 h4
      · have := Log_pages_sorted S.sorted h hll _ y1 _ h3
        omega
  · right
    refine ⟨i1, ?_⟩
    rw [j1, Res.ub_bind]

theorem getStored_miss (hc : CmpOk c.cmpKey K) (hN : 0 < c.N) (hbs : c.binSearch = true) {key : Nat} (hk : key < K)
    {d : Data} (S : Sim c lo K a d L) (hu : Unwritten c d) (h31 : d.next ≤ 2 ^ 31) (hnext : 0 < d.next)
    (hbuf : ∀ r ∈ L.buf, r.1 ≠ key) (hno : ∀ l, d.min ≤ l → l < d.next → ¬ InRange L l key) :
    (∃ d' code out, getStored c d key = .ok (d', code, out) ∧ SameButCache d d' ∧
      Sim c lo K a d' L ∧ Answer (L.live d.min) key code out) ∨ getStored c d key = .ub := by
  have hlive := S.live hnext
  have e32 : (d.min + (d.next - 1)) % 2 ^ 32 = d.min + (d.next - 1) := Nat.mod_eq_of_lt (by omega)
  unfold getStored
  rw [if_pos hbs]
  unfold binPageSearch
  rw [e32]
  rcases binLoop_miss hc hN hk 31 d d.min (d.next - 1) S hu hno (le_refl _) (by omega) (by omega) (by omega) (by omega)
    80 (by omega) with j1 | ⟨d', j1, j2, j3⟩
  · right
    rw [j1, Res.ub_bind]
  · left
    rw [j1, Res.ok_bind]
    refine ⟨d', -1, none, rfl, j2, j3, Or.inr ⟨?_, rfl, rfl⟩⟩
    apply lookup_none S hbuf
    intro l l1 l2 r h3 h4
    exact hno l l1 l2 ⟨⟨r, h3, h4.le⟩, ⟨r, h3, h4.ge⟩⟩

/-- The part of `embedDBGet` before the stored pages are searched. -/
theorem get_front (hc : CmpOk c.cmpKey K) {key : Nat} (hk : key < K) {d : Data} (S : Sim c lo K a d L)
    (h255 : ∀ i, i < L.buf.length → i % 256 ≠ 255) :
    (∃ code out, get c d key = .ok (d, code, out) ∧ Answer (L.live d.min) key code out ∧
      ∀ l (h : l < L.pages.length), d.min ≤ l → ∀ r ∈ L.pages[l], r.1 ≠ key) ∨
    (0 < d.next ∧ (∀ r ∈ L.buf, key < r.1) ∧ get c d key = getStored c d key) := by
  have hsorted := Log_live_sorted S.sorted d.min
  have hcount : pageCount d.wbuf = L.buf.length := by rw [← S.buf, recs_length]
  have hbs' := S.sortedBuf
  have inBuf : (∀ l (h : l < L.pages.length), d.min ≤ l → ∀ r ∈ L.pages[l], r.1 ≠ key) →
      ∃ r out, searchBuffer c d.wbuf key = .ok (r, out) ∧
        Answer (L.live d.min) key (if r ≠ -1 then 0 else -1) out := by
    intro hno
    unfold searchBuffer
    have hnone : (∀ x ∈ recs c d.wbuf, x.1 ≠ key) → Spec.lookup (L.live d.min) key = none := by
      intro h
      rw [lookup_eq_none]
      intro r hr
      rcases mem_live.mp hr with ⟨l, hl, hm, hrl⟩ | hr
      · exact hno l hl hm r hrl
      · exact h r (by rw [S.buf]; exact hr)
    by_cases h0 : pageCount d.wbuf = 0
    · rw [if_pos h0]
      refine ⟨-1, none, rfl, Or.inr ⟨hnone ?_, by simp, rfl⟩⟩
      intro x hx
      obtain ⟨i, hi, -⟩ := mem_recs.mp hx
      omega
    · rw [if_neg h0]
      obtain ⟨r, hr, hcase⟩ := searchNode_recs hc hbs' hk
      rw [hr, Res.ok_bind]
      rcases hcase with ⟨i, rfl, hi, hmem⟩ | ⟨rfl, hno'⟩
      · refine ⟨toInt8 i, _, rfl, Or.inl ⟨_, ?_, ?_, rfl⟩⟩
        · rw [lookup_eq_some hsorted]
          exact mem_live.mpr (Or.inr (by rw [← S.buf]; exact hmem))
        · rw [if_pos (toInt8_ne (h255 i (by omega)))]
      · exact ⟨-1, none, rfl, Or.inr ⟨hnone hno', by simp, rfl⟩⟩
  unfold EDB.get
  by_cases hn0 : d.next = 0
  · rw [if_pos hn0]
    have hno : ∀ l (h : l < L.pages.length), d.min ≤ l → ∀ r ∈ L.pages[l], r.1 ≠ key :=
      fun l h => by have := S.next; omega
    obtain ⟨r, out, h1, h2⟩ := inBuf hno
    rw [h1, Res.ok_bind]
    exact Or.inl ⟨_, out, rfl, h2, hno⟩
  · rw [if_neg hn0]
    by_cases hb0 : pageCount d.wbuf ≠ 0
    · rw [if_pos hb0]
      have hne : L.buf ≠ [] := by intro h; rw [h] at hcount; exact hb0 hcount
      obtain ⟨rmin, hrm, emin⟩ := minKey_mem S.buf hne
      obtain ⟨rmax, hrx, emax⟩ := maxKey_mem S.buf hne
      by_cases h1 : key > pageMaxKey c d.wbuf
      · rw [if_pos h1]
        have hno : ∀ l (h : l < L.pages.length), d.min ≤ l → ∀ r ∈ L.pages[l], r.1 ≠ key := by
          intro l hl hm r hrl
          have := Log_page_buf S.sorted hl r hrl rmax hrx
          omega
        refine Or.inl ⟨-1, none, rfl, Or.inr ⟨?_, rfl, rfl⟩, hno⟩
        rw [lookup_eq_none]
        intro r hr
        rcases mem_live.mp hr with ⟨l, hl, hm, hrl⟩ | hr
        · exact hno l hl hm r hrl
        · rw [← S.buf] at hr
          have := le_maxKey hbs' hr
          omega
      · rw [if_neg h1]
        by_cases h2 : key ≥ pageMinKey c d.wbuf
        · rw [if_pos h2]
          have hno : ∀ l (h : l < L.pages.length), d.min ≤ l → ∀ r ∈ L.pages[l], r.1 ≠ key := by
            intro l hl hm r hr
            have := Log_page_buf S.sorted hl r hr rmin hrm
            omega
          obtain ⟨r, out, h3, h4⟩ := inBuf hno
          rw [h3, Res.ok_bind]
          exact Or.inl ⟨_, out, rfl, h4, hno⟩
        · rw [if_neg h2]
          refine Or.inr ⟨by omega, ?_, rfl⟩
          intro r hr
          rw [← S.buf] at hr
          have := minKey_le hbs' hr
          omega
    · rw [if_neg hb0]
      refine Or.inr ⟨by omega, ?_, rfl⟩
      intro r hr
      have : L.buf = [] := List.length_eq_zero_iff.mp (by omega)
      rw [this] at hr
      cases hr

/-- A lookup in binary-search mode: a correct answer or undefined behaviour. -/
theorem get_bin (hc : CmpOk c.cmpKey K) (hN : 0 < c.N) (hbs : c.binSearch = true) {key : Nat} (hk : key < K)
    {d : Data} (S : Sim c lo K a d L) (hu : Unwritten c d) (h31 : d.next ≤ 2 ^ 31)
    (h255 : ∀ i, i < L.buf.length → i % 256 ≠ 255) :
    (∃ d' code out, get c d key = .ok (d', code, out) ∧ SameButCache d d' ∧
      Sim c lo K a d' L ∧ Answer (L.live d.min) key code out) ∨ get c d key = .ub := by
  rcases get_front hc hk S h255 with ⟨code, out, e, h, -⟩ | ⟨hn, hb, e⟩
  · exact Or.inl ⟨d, code, out, e, SameButCache.refl d, S, h⟩
  · rw [e]
    have hbuf : ∀ r ∈ L.buf, r.1 ≠ key := fun r hr => by have := hb r hr; omega
    by_cases ht : ∃ t, d.min ≤ t ∧ t < d.next ∧ InRange L t key
    · obtain ⟨t, h1, h2, h3⟩ := ht
      rcases getStored_hit hc hN hbs hk S h31 hbuf h1 h2 h3 with ⟨-, h⟩ | ⟨-, h⟩
      · exact Or.inl h
      · exact Or.inr h
    · exact getStored_miss hc hN hbs hk S hu h31 hn hbuf (fun l h1 h2 h3 => ht ⟨l, h1, h2, h3⟩)

/-- A lookup of a stored record: exactly the pages a bisection inspects before its interval shrinks to one page are
found. -/
theorem get_bin_stored (hc : CmpOk c.cmpKey K) (hN : 0 < c.N) (hbs : c.binSearch = true)
    {d : Data} (S : Sim c lo K a d L) (h31 : d.next ≤ 2 ^ 31) (h255 : ∀ i, i < L.buf.length → i % 256 ≠ 255) {t : Nat}
    (h1 : d.min ≤ t) (ht : t < L.pages.length) {r : Rec} (hr : r ∈ L.pages[t]) :
    (Inspected d.min (d.next - 1) t ∧ ∃ d', get c d r.1 = .ok (d', 0, some r.2)) ∨
    (¬ Inspected d.min (d.next - 1) t ∧ get c d r.1 = .ub) := by
  have hk := (S.bound r (mem_all_page ht hr)).2
  have hn := S.next
  have hl : Spec.lookup (L.live d.min) r.1 = some r.2 := by
    rw [lookup_eq_some (Log_live_sorted S.sorted d.min)]
    exact mem_live.mpr (Or.inl ⟨t, ht, h1, hr⟩)
  rcases get_front hc hk S h255 with ⟨code, out, e, h, hno⟩ | ⟨-, hb, e⟩
  · exact absurd rfl (hno t ht h1 r hr)
  · rw [e]
    have hbuf : ∀ x ∈ L.buf, x.1 ≠ r.1 := fun x hx => by have := hb x hx; omega
    rcases getStored_hit hc hN hbs hk S h31 hbuf h1 (by omega)
      (by rw [InRange, getD_page ht]; exact ⟨⟨r, hr, le_refl _⟩, ⟨r, hr, le_refl _⟩⟩) with ⟨i, d', code, out, j1, -, -, ha⟩ | h
    · left
      refine ⟨i, d', ?_⟩
      rw [j1]
      rcases ha with ⟨v, v1, rfl, rfl⟩ | ⟨v1, -⟩
      · rw [hl] at v1; cases v1; rfl
      · rw [hl] at v1; cases v1
    · exact Or.inr h

end

end EDB
