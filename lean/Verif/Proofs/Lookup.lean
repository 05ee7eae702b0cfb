import Verif.Proofs.Sim

/-! Helper lemmas: `linearSearch`, `splineSearch` and `embedDBGet` on a state that represents a log. -/

namespace EDB

open Spec (Log)

/-- The key lies between the smallest and the largest key of page `l`. -/
def InRange (L : Log) (l key : Nat) : Prop :=
  (∃ r ∈ L.pages.getD l [], r.1 ≤ key) ∧ (∃ r ∈ L.pages.getD l [], key ≤ r.1)

theorem getD_page {L : Log} {l : Nat} (hl : l < L.pages.length) : L.pages.getD l [] = L.pages[l] := by
  rw [List.getD_eq_getElem?_getD, List.getElem?_eq_getElem hl, Option.getD_some]

theorem minKey_mem {c : Cfg} {p : Page} {rs : List Rec} (h : recs c p = rs) (hne : rs ≠ []) :
    ∃ r ∈ rs, r.1 = pageMinKey c p := by
  cases rs with
  | nil => exact absurd rfl hne
  | cons a t => exact ⟨a, by simp, (pageMinKey_eq h).symm⟩

theorem maxKey_mem {c : Cfg} {p : Page} {rs : List Rec} (h : recs c p = rs) (hne : rs ≠ []) :
    ∃ r ∈ rs, r.1 = pageMaxKey c p := by
  have hl : 0 < pageCount p := by
    rw [← recs_length c, h]; exact List.length_pos_iff.mpr hne
  refine ⟨(slotKey c p (pageCount p - 1), slotData c p (pageCount p - 1)), ?_, rfl⟩
  rw [← h]
  exact mem_recs.mpr ⟨_, by omega, rfl⟩

theorem minKey_le {c : Cfg} {K : Nat} {p : Page} (hs : SortedPage c K p) {r : Rec} (hr : r ∈ recs c p) :
    pageMinKey c p ≤ r.1 := by
  obtain ⟨i, hi, rfl⟩ := mem_recs.mp hr
  rcases Nat.eq_zero_or_pos i with h0 | h0
  · rw [h0]; exact le_refl _
  · exact le_of_lt (hs.asc 0 i h0 hi)

theorem le_maxKey {c : Cfg} {K : Nat} {p : Page} (hs : SortedPage c K p) {r : Rec} (hr : r ∈ recs c p) :
    r.1 ≤ pageMaxKey c p := by
  obtain ⟨i, hi, rfl⟩ := mem_recs.mp hr
  rcases Nat.eq_or_lt_of_le (show i ≤ pageCount p - 1 by omega) with h0 | h0
  · rw [h0]; exact le_refl _
  · exact le_of_lt (hs.asc i _ h0 (by omega))

section
variable {c : Cfg} {lo K a : Nat} {L : Log}

theorem linSearch_ok (hc : CmpOk c.cmpKey K) (hN : 0 < c.N) {key : Nat} (hk : key < K) :
    ∀ (f : Nat) (d : Data) (_ : Sim c lo K a d L) (pageId low high : Int), high - low + 1 < f → low ≤ high + 1 →
    (d.min : Int) ≤ low → high < d.next → (low ≤ high → low ≤ pageId ∧ pageId ≤ high) →
    ∃ d' b, linSearch c key f d pageId low high = .ok (d', b) ∧ SameButCache d d' ∧ Sim c lo K a d' L ∧
      (d'.numReads : Int) ≤ d.numReads + (high - low + 1) ∧
      (b = true → ∃ q : Nat, low ≤ q ∧ (q : Int) ≤ high ∧ recs c d'.rbuf = L.pages.getD q [] ∧ InRange L q key ∧
        d'.dev.file (q % c.N) = some d'.rbuf) ∧
      (b = false → ∀ l : Nat, low ≤ l → (l : Int) ≤ high → ¬ InRange L l key) := by
  intro f
  induction f with
  | zero => intro d S pageId low high hf h1; simp only [Nat.cast_zero] at hf; omega
  | succ f ih =>
    intro d S pageId low high hf h1 hmin hnext hp
    unfold linSearch
    by_cases hex : pageId > high ∨ pageId < low ∨ low > high ∨ pageId < d.min ∨ pageId ≥ d.next
    · rw [if_pos hex]
      have hgt : low > high := by
        by_contra hcon
        have := hp (by omega)
        omega
      refine ⟨d, false, rfl, SameButCache.refl d, S, by omega, (fun h => by cases h), ?_⟩
      intro _ l _ _; omega
    · rw [if_neg hex]
      obtain ⟨q, rfl⟩ : ∃ q : Nat, pageId = q := ⟨pageId.toNat, by omega⟩
      push_cast at hf
      simp only [Int.toNat_natCast]
      obtain ⟨d1, hr, hE, S1, hbuf1, hrec, -, hreads⟩ := S.readPage hN (l := q) (by omega) (by omega)
      rw [hr]
      simp only [if_true]
      have hql : q < L.pages.length := by have := S.next; omega
      have hg := getD_page hql
      have hne : L.pages.getD q [] ≠ [] := by rw [hg]; exact S.full _ (List.getElem_mem hql)
      have hsp : SortedPage c K d1.rbuf := S.sortedPage hql (by rw [hrec, hg])
      obtain ⟨rmin, hrm, emin⟩ := minKey_mem hrec hne
      obtain ⟨rmax, hrx, emax⟩ := maxKey_mem hrec hne
      have kmin : pageMinKey c d1.rbuf < K := by
        rw [← emin]; rw [hg] at hrm; exact (S.bound _ (mem_all_page hql hrm)).2
      have kmax : pageMaxKey c d1.rbuf < K := by
        rw [← emax]; rw [hg] at hrx; exact (S.bound _ (mem_all_page hql hrx)).2
      by_cases hlt : c.cmpKey key (pageMinKey c d1.rbuf) < 0
      · rw [if_pos hlt]
        have hlt' := (hc.lt _ _ hk kmin).mp hlt
        obtain ⟨d2, b, e1, e2, e3, e4, e5, e6⟩ := ih d1 S1 ((q : Int) - 1) low ((q : Int) - 1) (by omega) (by omega)
          (by rw [hE.min]; omega) (by rw [hE.next]; omega) (fun h => by omega)
        refine ⟨d2, b, e1, hE.trans e2, e3, by omega, ?_, ?_⟩
        · intro hb
          obtain ⟨w, w1, w2, w3, w4⟩ := e5 hb
          exact ⟨w, w1, by omega, w3, w4⟩
        · intro hb l hl1 hl2
          by_cases hlq : (l : Int) ≤ (q : Int) - 1
          · exact e6 hb l hl1 hlq
          · rintro ⟨⟨r, hr1, hr2⟩, -⟩
            have hll : l < L.pages.length := by have := S.next; omega
            rcases Nat.eq_or_lt_of_le (show q ≤ l by omega) with heq | hgt
            · subst heq
              rw [← hrec] at hr1
              have := minKey_le hsp hr1
              omega
            · rw [getD_page hll] at hr1
              rw [hg] at hrm
              have := Log_pages_sorted S.sorted hgt hll _ hrm _ hr1
              omega
      · rw [if_neg hlt]
        rw [hc.lt _ _ hk kmin] at hlt
        by_cases hgt : c.cmpKey key (pageMaxKey c d1.rbuf) > 0
        · rw [if_pos hgt]
          have hgt' := (hc.pos hk kmax).mp hgt
          obtain ⟨d2, b, e1, e2, e3, e4, e5, e6⟩ := ih d1 S1 ((q : Int) + 1) ((q : Int) + 1) high (by omega) (by omega)
            (by rw [hE.min]; omega) (by rw [hE.next]; omega) (fun h => by omega)
          refine ⟨d2, b, e1, hE.trans e2, e3, by omega, ?_, ?_⟩
          · intro hb
            obtain ⟨w, w1, w2, w3, w4⟩ := e5 hb
            exact ⟨w, by omega, w2, w3, w4⟩
          · intro hb l hl1 hl2
            by_cases hlq : (q : Int) + 1 ≤ l
            · exact e6 hb l hlq hl2
            · rintro ⟨-, ⟨r, hr1, hr2⟩⟩
              rcases Nat.eq_or_lt_of_le (show l ≤ q by omega) with heq | hlt2
              · subst heq
                rw [← hrec] at hr1
                have := le_maxKey hsp hr1
                omega
              · rw [getD_page (by omega)] at hr1
                rw [hg] at hrx
                have := Log_pages_sorted S.sorted hlt2 hql _ hr1 _ hrx
                omega
        · rw [if_neg hgt]
          rw [hc.pos hk kmax] at hgt
          refine ⟨d1, true, rfl, hE, S1, by omega, ?_, (fun h => by cases h)⟩
          intro _
          refine ⟨q, by omega, by omega, hrec, ⟨⟨rmin, hrm, by omega⟩, ⟨rmax, hrx, by omega⟩⟩, ?_⟩
          exact S1.cache _ hbuf1 q (by rw [hE.min]; omega) (by rw [hE.next]; omega) rfl

/-- The page a key belongs to is within the spline's range. -/
theorem inRange_bracket {d : Data} (S : Sim c lo K a d L) {key : Nat} {r : Spline.Found}
    (G : Spline.Good (firstKey L) a d.next key r) {l : Nat} (hl1 : a ≤ l) (hl2 : l < d.next) (hin : InRange L l key) :
    r.low ≤ l ∧ l ≤ r.high := by
  have hll : l < L.pages.length := by rw [← S.next]; exact hl2
  have hne := S.full _ (List.getElem_mem hll)
  obtain ⟨⟨x, hx1, hx2⟩, ⟨y, hy1, hy2⟩⟩ := hin
  rw [getD_page hll] at hx1 hy1
  apply G.bracket l hl1 hl2
  · rw [firstKey_eq hll hne]
    have hs := Log_page_sorted S.sorted hll
    generalize L.pages[l] = pg at *
    cases pg with
    | nil => exact absurd rfl hne
    | cons z t =>
      rcases List.mem_cons.mp hx1 with rfl | h
      · exact hx2
      · have := (List.pairwise_cons.mp hs).1 x h
        simp only [List.head_cons]; omega
  · intro hlt
    have hll' : l + 1 < L.pages.length := by rw [← S.next]; exact hlt
    have hne' := S.full _ (List.getElem_mem hll')
    rw [firstKey_eq hll' hne']
    have := Log_pages_sorted S.sorted (Nat.lt_succ_self l) hll' y hy1 _ (List.head_mem hne')
    omega

theorem splineSearch_ok (hc : CmpOk c.cmpKey K) (hN : 0 < c.N) {P : Nat} (hB : Bounds c lo K P) {key : Nat}
    (hk : key < K) {d : Data} (S : Sim c lo K a d L) (hP : d.next ≤ P) (hnext : 0 < d.next) :
    ∃ d' b, splineSearch c d key = .ok (d', b) ∧ SameButCache d d' ∧ Sim c lo K a d' L ∧
      (∃ r, d.spl.find c.cmpKey key = .ok r ∧ d'.numReads ≤ d.numReads + (r.high + 1 - max r.low d.min)) ∧
      (b = true → ∃ q : Nat, d.min ≤ q ∧ q < d.next ∧ recs c d'.rbuf = L.pages.getD q [] ∧ InRange L q key ∧
        d'.dev.file (q % c.N) = some d'.rbuf) ∧
      (b = false → ∀ l : Nat, d.min ≤ l → l < d.next → ¬ InRange L l key) := by
  have hlive := S.live hnext
  have ha : a < d.next := by have := S.amin; omega
  have F := S.feed hB hP ha
  have hn := S.next
  have hamin := S.amin
  obtain ⟨r, hr, G⟩ := S.spl.find F ha hc hk (fun p _ h2 => (S.firstKey_bound (by omega)).2)
  unfold splineSearch
  rw [hr, Res.ok_bind]
  have g1 := G.lo
  have g2 := G.hi
  have g3 := G.inside
  by_cases hlow : r.high < d.min
  · rw [if_pos hlow]
    refine ⟨d, false, rfl, SameButCache.refl d, S, ⟨r, rfl, by omega⟩, (fun h => by cases h), ?_⟩
    intro _ l hl1 hl2 hin
    have := inRange_bracket S G (by omega) hl2 hin
    omega
  · rw [if_neg hlow]
    simp only
    have hb : ∃ low loc : Nat, (if r.low < d.min then d.min else r.low) = low ∧
        (if r.low < d.min then (d.min + r.high) / 2 else r.loc) = loc ∧ d.min ≤ low ∧ low ≤ loc ∧ loc ≤ r.high ∧
        r.low ≤ low ∧ ∀ l, d.min ≤ l → l < d.next → InRange L l key → low ≤ l ∧ l ≤ r.high := by
      refine ⟨_, _, rfl, rfl, ?_, ?_, ?_, ?_, ?_⟩
      · split_ifs <;> omega
      · split_ifs <;> omega
      · split_ifs <;> omega
      · split_ifs <;> omega
      · intro l h1 h2 h3
        have := inRange_bracket S G (by omega) h2 h3
        split_ifs <;> omega
    obtain ⟨low, loc, e1, e2, b1, b2, b3, b4, b5⟩ := hb
    rw [e1, e2]
    -- the linear search
    have lin : ∃ d' b, linSearch c key (r.high - low + 2) d loc low r.high = .ok (d', b) ∧ SameButCache d d' ∧
        Sim c lo K a d' L ∧ (d'.numReads ≤ d.numReads + (r.high + 1 - max r.low d.min)) ∧
        (b = true → ∃ q : Nat, d.min ≤ q ∧ q < d.next ∧ recs c d'.rbuf = L.pages.getD q [] ∧ InRange L q key ∧
        d'.dev.file (q % c.N) = some d'.rbuf) ∧
        (b = false → ∀ l : Nat, d.min ≤ l → l < d.next → ¬ InRange L l key) := by
      obtain ⟨d', b, f1, f2, f3, f4, f5, f6⟩ := linSearch_ok hc hN hk (r.high - low + 2) d S loc low r.high (by omega)
        (by omega) (by omega) (by omega) (fun _ => by omega)
      refine ⟨d', b, f1, f2, f3, by omega, ?_, ?_⟩
      · intro hb
        obtain ⟨q, q1, q2, q3, q4⟩ := f5 hb
        exact ⟨q, by omega, by omega, q3, q4⟩
      · intro hb l h1 h2 h3
        have := b5 l h1 h2 h3
        exact f6 hb l (by omega) (by omega) h3
    cases hbuf : d.buffered with
    | none =>
      simp only [Bool.false_eq_true, if_false]
      obtain ⟨d', b, f1, f2, f3, f4, f5, f6⟩ := lin
      exact ⟨d', b, f1, f2, f3, ⟨r, rfl, f4⟩, f5, f6⟩
    | some ph =>
      simp only [decide_eq_true_eq]
      by_cases hcached : low ≤ ph ∧ r.high ≥ ph ∧ c.cmpKey (pageMinKey c d.rbuf) key ≤ 0 ∧
          c.cmpKey (pageMaxKey c d.rbuf) key ≥ 0
      · rw [if_pos hcached]
        have hphN := (S.cacheN ph hbuf).1
        have hmod : ph % c.N = ph := Nat.mod_eq_of_lt hphN
        have hfile := S.cache ph hbuf ph (by omega) (by omega) hmod
        have hpl : ph < L.pages.length := by omega
        obtain ⟨p, p1, p2, -⟩ := S.stored ph (by omega) hpl
        rw [hmod, hfile] at p1
        cases p1
        have hg := getD_page hpl
        have hrec : recs c d.rbuf = L.pages.getD ph [] := by rw [hg]; exact p2
        have hne : L.pages.getD ph [] ≠ [] := by rw [hg]; exact S.full _ (List.getElem_mem hpl)
        obtain ⟨rmin, hrm, emin⟩ := minKey_mem hrec hne
        obtain ⟨rmax, hrx, emax⟩ := maxKey_mem hrec hne
        have kmin : pageMinKey c d.rbuf < K := by
          rw [← emin]; rw [hg] at hrm; exact (S.bound _ (mem_all_page hpl hrm)).2
        have kmax : pageMaxKey c d.rbuf < K := by
          rw [← emax]; rw [hg] at hrx; exact (S.bound _ (mem_all_page hpl hrx)).2
        have h1 := (hc.le kmin hk).mp hcached.2.2.1
        have h2 := (hc.ge kmax hk).mp hcached.2.2.2
        refine ⟨d, true, rfl, SameButCache.refl d, S, ⟨r, rfl, by omega⟩, ?_, (fun h => by cases h)⟩
        intro _
        exact ⟨ph, by omega, by omega, hrec, ⟨⟨rmin, hrm, by omega⟩, ⟨rmax, hrx, by omega⟩⟩, by rw [hmod]; exact hfile⟩
      · rw [if_neg hcached]
        obtain ⟨d', b, f1, f2, f3, f4, f5, f6⟩ := lin
        exact ⟨d', b, f1, f2, f3, ⟨r, rfl, f4⟩, f5, f6⟩

end

/-! ### Lookups among records with distinct keys -/

theorem lookup_eq_some {rs : List Rec} (h : rs.Pairwise (fun r s => r.1 < s.1)) {k : Nat} {v : List Byte} :
    Spec.lookup rs k = some v ↔ (k, v) ∈ rs := by
  unfold Spec.lookup
  induction rs with
  | nil => simp
  | cons r t ih =>
    rw [List.pairwise_cons] at h
    by_cases hr : r.1 = k
    · rw [List.find?_cons_of_pos (by simpa using hr)]
      simp only [Option.map_some, Option.some.injEq, List.mem_cons]
      constructor
      · rintro rfl; left; rw [← hr]
      · rintro (h1 | h1)
        · rw [← h1]
        · have := h.1 _ h1; simp only at this; omega
    · rw [List.find?_cons_of_neg (by simpa using hr), ih h.2, List.mem_cons]
      constructor
      · exact Or.inr
      · rintro (h1 | h1)
        · exact absurd (by rw [← h1]) hr
        · exact h1

theorem lookup_eq_none {rs : List Rec} {k : Nat} :
    Spec.lookup rs k = none ↔ ∀ r ∈ rs, r.1 ≠ k := by
  unfold Spec.lookup
  rw [Option.map_eq_none_iff, List.find?_eq_none]
  simp

theorem Log_live_sorted {L : Log} (h : L.all.Pairwise (fun r s => r.1 < s.1)) (m : Nat) :
    (L.live m).Pairwise (fun r s => r.1 < s.1) := by
  refine h.sublist ?_
  unfold Log.live Log.all
  refine List.Sublist.append_right ?_ _
  conv_rhs => rw [← List.take_append_drop m L.pages, List.flatten_append]
  exact List.sublist_append_right _ _

/-- The answer of a lookup: result code and bytes copied out. -/
def Answer (rs : List Rec) (key : Nat) (code : Int) (out : Option (List Byte)) : Prop :=
  (∃ v, Spec.lookup rs key = some v ∧ code = 0 ∧ out = some v) ∨
    (Spec.lookup rs key = none ∧ code = -1 ∧ out = none)

/-- Search inside one page. -/
theorem searchNode_recs {c : Cfg} {K : Nat} (hc : CmpOk c.cmpKey K) {p : Page} (hs : SortedPage c K p) {key : Nat}
    (hk : key < K) : ∃ r, searchNode c p key = .ok r ∧
      ((∃ i, r = some i ∧ i < pageCount p ∧ (key, slotData c p i) ∈ recs c p) ∨
        (r = none ∧ ∀ x ∈ recs c p, x.1 ≠ key)) := by
  obtain ⟨r, hr, hi⟩ := searchNode_ok hc hs hk
  refine ⟨r, hr, ?_⟩
  cases r with
  | none =>
    right
    refine ⟨rfl, ?_⟩
    intro x hx hxk
    obtain ⟨i, h1, rfl⟩ := mem_recs.mp hx
    have := (hi i).mpr ⟨h1, hxk⟩
    cases this
  | some i =>
    left
    obtain ⟨h1, h2⟩ := (hi i).mp rfl
    exact ⟨i, rfl, h1, mem_recs.mpr ⟨i, h1, by rw [h2]⟩⟩

section
variable {c : Cfg} {lo K a : Nat} {L : Log}

theorem getStored_ok (hc : CmpOk c.cmpKey K) (hN : 0 < c.N) {P : Nat} (hB : Bounds c lo K P)
    (hbs : c.binSearch = false) {key : Nat} (hk : key < K) {d : Data} (S : Sim c lo K a d L) (hP : d.next ≤ P)
    (hnext : 0 < d.next) (hbuf : ∀ r ∈ L.buf, r.1 ≠ key) :
    ∃ d' code out, getStored c d key = .ok (d', code, out) ∧ SameButCache d d' ∧ Sim c lo K a d' L ∧
      (∃ r, d.spl.find c.cmpKey key = .ok r ∧ d'.numReads ≤ d.numReads + (r.high + 1 - max r.low d.min)) ∧
      Answer (L.live d.min) key code out := by
  obtain ⟨d', b, e1, e2, e3, e4, e5, e6⟩ := splineSearch_ok hc hN hB hk S hP hnext
  unfold getStored
  rw [if_neg (show ¬ (c.binSearch = true) by rw [hbs]; simp), e1, Res.ok_bind]
  have hsorted := Log_live_sorted S.sorted d.min
  have hnotin : (∀ l : Nat, d.min ≤ l → l < d.next → ¬ ∃ r ∈ L.pages.getD l [], r.1 = key) →
      Spec.lookup (L.live d.min) key = none := by
    intro h
    rw [lookup_eq_none]
    intro r hr hrk
    rcases mem_live.mp hr with ⟨l, hl, hm, hrl⟩ | hr
    · exact h l hm (by rw [S.next]; exact hl) ⟨r, by rw [getD_page hl]; exact hrl, hrk⟩
    · exact hbuf r hr hrk
  cases b with
  | false =>
    refine ⟨d', -1, none, rfl, e2, e3, e4, Or.inr ⟨?_, rfl, rfl⟩⟩
    apply hnotin
    rintro l h1 h2 ⟨r, h3, h4⟩
    exact e6 rfl l h1 h2 ⟨⟨r, h3, h4.le⟩, ⟨r, h3, h4.ge⟩⟩
  | true =>
    obtain ⟨q, q1, q2, q3, ⟨⟨x, x1, x2⟩, ⟨y, y1, y2⟩⟩, -⟩ := e5 rfl
    have hql : q < L.pages.length := by rw [← S.next]; exact q2
    have hg := getD_page hql
    rw [hg] at q3 x1 y1
    have hs := S.sortedPage hql q3
    obtain ⟨r, hr, hcase⟩ := searchNode_recs hc hs hk
    simp only [if_true]
    rw [hr, Res.ok_bind]
    rcases hcase with ⟨i, rfl, hi, hmem⟩ | ⟨rfl, hno⟩
    · refine ⟨d', 0, _, rfl, e2, e3, e4, Or.inl ⟨_, ?_, rfl, rfl⟩⟩
      rw [lookup_eq_some hsorted]
      exact mem_live.mpr (Or.inl ⟨q, hql, q1, by rw [← q3]; exact hmem⟩)
    · refine ⟨d', -1, none, rfl, e2, e3, e4, Or.inr ⟨?_, rfl, rfl⟩⟩
      apply hnotin
      rintro l h1 h2 ⟨r, h3, h4⟩
      have hll : l < L.pages.length := by rw [← S.next]; exact h2
      rw [getD_page hll] at h3
      rcases Nat.lt_trichotomy l q with h | h | h
      · have := Log_pages_sorted S.sorted h hql _ h3 _ x1
        omega
      · subst h
        rw [← q3] at h3
        exact hno r h3 h4
      · have := Log_pages_sorted S.sorted h hll _ y1 _ h3
        omega

/-- A successful lookup among the stored pages leaves the page with the record in the read buffer. -/
theorem getStored_page (hc : CmpOk c.cmpKey K) (hN : 0 < c.N) {P : Nat} (hB : Bounds c lo K P)
    (hbs : c.binSearch = false) {key : Nat} (hk : key < K) {d d' : Data} (S : Sim c lo K a d L) (hP : d.next ≤ P)
    (hnext : 0 < d.next) {out : Option (List Byte)} (e : getStored c d key = .ok (d', 0, out)) :
    ∃ q i, d.min ≤ q ∧ q < d.next ∧ d'.dev.file (q % c.N) = some d'.rbuf ∧ searchNode c d'.rbuf key = .ok (some i) ∧
      i < pageCount d'.rbuf ∧ slotKey c d'.rbuf i = key := by
  obtain ⟨d1, b, e1, e2, e3, e4, e5, e6⟩ := splineSearch_ok hc hN hB hk S hP hnext
  unfold getStored at e
  rw [if_neg (show ¬ (c.binSearch = true) by rw [hbs]; simp), e1, Res.ok_bind] at e
  cases b with
  | false => simp at e
  | true =>
    obtain ⟨q, q1, q2, q3, -, q5⟩ := e5 rfl
    have hql : q < L.pages.length := by rw [← S.next]; exact q2
    rw [getD_page hql] at q3
    have hs := S.sortedPage hql q3
    obtain ⟨r, hr, hi⟩ := searchNode_ok hc hs hk
    simp only [if_true] at e
    rw [hr, Res.ok_bind] at e
    cases r with
    | none => simp at e
    | some i =>
      simp only [Res.ok.injEq, Prod.mk.injEq] at e
      obtain ⟨h1, h2⟩ := (hi i).mp rfl
      rw [← e.1]
      exact ⟨q, i, q1, q2, q5, hr, h1, h2⟩

theorem toInt8_ne {i : Nat} (h : i % 256 ≠ 255) : toInt8 i ≠ -1 := by
  unfold toInt8
  simp only
  split_ifs <;> omega

/-- `embedDBGet` on a represented log. The slot whose number is 255 modulo 256 is treated as "not found" by
`searchBuffer`, so the buffer must not reach it. -/
theorem get_ok (hc : CmpOk c.cmpKey K) (hN : 0 < c.N) {P : Nat} (hB : Bounds c lo K P)
    (hbs : c.binSearch = false) {key : Nat} (hk : key < K) {d : Data} (S : Sim c lo K a d L) (hP : d.next ≤ P)
    (h255 : ∀ i, i < L.buf.length → i % 256 ≠ 255) :
    ∃ d' code out, get c d key = .ok (d', code, out) ∧ SameButCache d d' ∧ Sim c lo K a d' L ∧
      Answer (L.live d.min) key code out := by
  have hsorted := Log_live_sorted S.sorted d.min
  have hcount : pageCount d.wbuf = L.buf.length := by rw [← S.buf, recs_length]
  have hbs' := S.sortedBuf
  -- searching the buffer decides the answer whenever no stored page can hold the key
  have inBuf : (∀ l (h : l < L.pages.length), d.min ≤ l → ∀ r ∈ L.pages[l], r.1 ≠ key) →
      ∃ r out, searchBuffer c d.wbuf key = .ok (r, out) ∧
        Answer (L.live d.min) key (if r ≠ -1 then 0 else -1) out := by
    intro hno
    unfold searchBuffer
    have hnone : (∀ x ∈ recs c d.wbuf, x.1 ≠ key) → Spec.lookup (L.live d.min) key = none := by
      intro h
      rw [lookup_eq_none]
      intro r hr
      rcases mem_live.mp hr with ⟨l, hl, hm, hrl⟩ | hr
      · exact hno l hl hm r hrl
      · exact h r (by rw [S.buf]; exact hr)
    by_cases h0 : pageCount d.wbuf = 0
    · rw [if_pos h0]
      refine ⟨-1, none, rfl, Or.inr ⟨hnone ?_, by simp, rfl⟩⟩
      intro x hx
      obtain ⟨i, hi, -⟩ := mem_recs.mp hx
      omega
    · rw [if_neg h0]
      obtain ⟨r, hr, hcase⟩ := searchNode_recs hc hbs' hk
      rw [hr, Res.ok_bind]
      rcases hcase with ⟨i, rfl, hi, hmem⟩ | ⟨rfl, hno'⟩
      · refine ⟨toInt8 i, _, rfl, Or.inl ⟨_, ?_, ?_, rfl⟩⟩
        · rw [lookup_eq_some hsorted]
          exact mem_live.mpr (Or.inr (by rw [← S.buf]; exact hmem))
        · rw [if_pos (toInt8_ne (h255 i (by omega)))]
      · exact ⟨-1, none, rfl, Or.inr ⟨hnone hno', by simp, rfl⟩⟩
  unfold EDB.get
  by_cases hn0 : d.next = 0
  · rw [if_pos hn0]
    obtain ⟨r, out, h1, h2⟩ := inBuf (fun l h => by have := S.next; omega)
    rw [h1, Res.ok_bind]
    exact ⟨d, _, out, rfl, SameButCache.refl d, S, h2⟩
  · rw [if_neg hn0]
    by_cases hb0 : pageCount d.wbuf ≠ 0
    · rw [if_pos hb0]
      have hne : L.buf ≠ [] := by intro h; rw [h] at hcount; exact hb0 hcount
      obtain ⟨rmin, hrm, emin⟩ := minKey_mem S.buf hne
      obtain ⟨rmax, hrx, emax⟩ := maxKey_mem S.buf hne
      by_cases h1 : key > pageMaxKey c d.wbuf
      · rw [if_pos h1]
        refine ⟨d, -1, none, rfl, SameButCache.refl d, S, Or.inr ⟨?_, rfl, rfl⟩⟩
        rw [lookup_eq_none]
        intro r hr
        rcases mem_live.mp hr with ⟨l, hl, hm, hrl⟩ | hr
        · have := Log_page_buf S.sorted hl r hrl rmax hrx
          omega
        · rw [← S.buf] at hr
          have := le_maxKey hbs' hr
          omega
      · rw [if_neg h1]
        by_cases h2 : key ≥ pageMinKey c d.wbuf
        · rw [if_pos h2]
          obtain ⟨r, out, h3, h4⟩ := inBuf (fun l hl hm r hr => by
            have := Log_page_buf S.sorted hl r hr rmin hrm
            omega)
          rw [h3, Res.ok_bind]
          exact ⟨d, _, out, rfl, SameButCache.refl d, S, h4⟩
        · rw [if_neg h2]
          obtain ⟨d', code, out, g1, g2, g3, -, g5⟩ := getStored_ok hc hN hB hbs hk S hP (by omega) (by
            intro r hr
            rw [← S.buf] at hr
            have := minKey_le hbs' hr
            omega)
          exact ⟨d', code, out, g1, g2, g3, g5⟩
    · rw [if_neg hb0]
      obtain ⟨d', code, out, g1, g2, g3, -, g5⟩ := getStored_ok hc hN hB hbs hk S hP (by omega) (by
        intro r hr
        have : L.buf = [] := List.length_eq_zero_iff.mp (by omega)
        rw [this] at hr
        cases hr)
      exact ⟨d', code, out, g1, g2, g3, g5⟩

/-- A successful lookup of a key that is not in the write buffer. -/
theorem get_page (hc : CmpOk c.cmpKey K) (hN : 0 < c.N) {P : Nat} (hB : Bounds c lo K P)
    (hbs : c.binSearch = false) {key : Nat} (hk : key < K) {d d' : Data} (S : Sim c lo K a d L) (hP : d.next ≤ P)
    (hno : ∀ r ∈ L.buf, r.1 ≠ key) {out : Option (List Byte)} (e : get c d key = .ok (d', 0, out)) :
    ∃ q i, d.min ≤ q ∧ q < d.next ∧ d'.dev.file (q % c.N) = some d'.rbuf ∧ searchNode c d'.rbuf key = .ok (some i) ∧
      i < pageCount d'.rbuf ∧ slotKey c d'.rbuf i = key := by
  have hbs' := S.sortedBuf
  have nobuf : ∀ r out, searchBuffer c d.wbuf key = .ok (r, out) → r = -1 := by
    intro r out hr
    unfold searchBuffer at hr
    split_ifs at hr
    · simp only [Res.ok.injEq, Prod.mk.injEq] at hr; exact hr.1.symm
    · obtain ⟨r', hr', hcase⟩ := searchNode_recs hc hbs' hk
      rw [hr', Res.ok_bind] at hr
      rcases hcase with ⟨i, rfl, hi, hmem⟩ | ⟨rfl, -⟩
      · rw [S.buf] at hmem
        exact absurd rfl (hno _ hmem)
      · simp only [Res.ok.injEq, Prod.mk.injEq] at hr; exact hr.1.symm
  have fromBuf : ∀ d1 : Data, (do
      let (r, out) ← searchBuffer c d.wbuf key
      .ok (d1, if r ≠ -1 then 0 else -1, out) : Res (Data × Int × Option (List Byte))) ≠ .ok (d', 0, out) := by
    intro d1 h
    cases hsb : searchBuffer c d.wbuf key with
    | ok ro =>
      obtain ⟨r, o⟩ := ro
      rw [hsb, Res.ok_bind] at h
      have := nobuf r o hsb
      subst this
      simp at h
    | ub => rw [hsb] at h; cases h
    | fuel => rw [hsb] at h; cases h
  unfold EDB.get at e
  by_cases hn0 : d.next = 0
  · rw [if_pos hn0] at e
    exact absurd e (fromBuf d)
  · rw [if_neg hn0] at e
    by_cases hb0 : pageCount d.wbuf ≠ 0
    · rw [if_pos hb0] at e
      by_cases h1 : key > pageMaxKey c d.wbuf
      · rw [if_pos h1] at e; simp at e
      · rw [if_neg h1] at e
        by_cases h2 : key ≥ pageMinKey c d.wbuf
        · rw [if_pos h2] at e
          exact absurd e (fromBuf d)
        · rw [if_neg h2] at e
          exact getStored_page hc hN hB hbs hk S hP (by omega) e
    · rw [if_neg hb0] at e
      exact getStored_page hc hN hB hbs hk S hP (by omega) e

end

end EDB
