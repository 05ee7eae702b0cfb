import Verif.Proofs.PageSpec
import Verif.Proofs.SplineFind
import Verif.Spec.Log

/-! Helper lemmas: the relation between a state of the data part and the abstract log, and page reads. -/

namespace EDB

open Spec (Log)

/-- First key of page `l`. -/
def firstKey (L : Log) (l : Nat) : Nat := ((L.pages.getD l []).headD (0, [])).1

/-- Bounds under which the 64-bit arithmetic of the spline is exact: keys in `[lo, K)`, at most `P` pages. -/
structure Bounds (c : Cfg) (lo K P : Nat) : Prop where
  prod : (K - lo) * (P + c.maxErr) < 2 ^ 63
  pages : P < 2 ^ 32
  key : K ≤ 256 ^ c.keySize

/-- State `d` represents the log `L`, of which the pages below `d.min` are no longer stored.  `a` is the first page
the spline knows. -/
structure Sim (c : Cfg) (lo K a : Nat) (d : Data) (L : Log) : Prop where
  next : d.next = L.pages.length
  amin : a ≤ d.min
  minle : d.min ≤ d.next
  live : 0 < d.next → d.min < d.next
  window : d.next ≤ d.min + c.N
  stored : ∀ l, d.min ≤ l → ∀ h : l < L.pages.length, ∃ p, d.dev.file (l % c.N) = some p ∧ recs c p = L.pages[l] ∧
    pageId p = l % 2 ^ 32
  buf : recs c d.wbuf = L.buf
  full : ∀ pg ∈ L.pages, pg ≠ []
  sorted : L.all.Pairwise (fun r s => r.1 < s.1)
  bound : ∀ r ∈ L.all, lo ≤ r.1 ∧ r.1 < K
  spl : Spline.Inv d.spl (firstKey L) a d.next
  err : d.spl.maxErr = c.maxErr
  cacheN : ∀ ph, d.buffered = some ph → ph < c.N ∧ ph < d.next
  cache : ∀ ph, d.buffered = some ph → ∀ l, d.min ≤ l → l < d.next → l % c.N = ph → d.dev.file ph = some d.rbuf

/-! ### Pages of a sorted log -/

theorem Log_page_sorted {L : Log} (h : L.all.Pairwise (fun r s => r.1 < s.1)) {l : Nat} (hl : l < L.pages.length) :
    (L.pages[l]).Pairwise (fun r s => r.1 < s.1) := by
  unfold Log.all at h
  exact (List.pairwise_flatten.mp (List.pairwise_append.mp h).1).1 _ (List.getElem_mem hl)

theorem Log_pages_sorted {L : Log} (h : L.all.Pairwise (fun r s => r.1 < s.1)) {l m : Nat} (hlm : l < m)
    (hm : m < L.pages.length) : ∀ x ∈ L.pages[l], ∀ y ∈ L.pages[m], x.1 < y.1 := by
  unfold Log.all at h
  have := (List.pairwise_flatten.mp (List.pairwise_append.mp h).1).2
  exact List.pairwise_iff_getElem.mp this l m (by omega) hm hlm

theorem Log_buf_sorted {L : Log} (h : L.all.Pairwise (fun r s => r.1 < s.1)) :
    L.buf.Pairwise (fun r s => r.1 < s.1) := (List.pairwise_append.mp h).2.1

theorem Log_page_buf {L : Log} (h : L.all.Pairwise (fun r s => r.1 < s.1)) {l : Nat} (hl : l < L.pages.length) :
    ∀ x ∈ L.pages[l], ∀ y ∈ L.buf, x.1 < y.1 := by
  intro x hx y hy
  exact (List.pairwise_append.mp h).2.2 x (List.mem_flatten.mpr ⟨_, List.getElem_mem hl, hx⟩) y hy

theorem mem_all_page {L : Log} {l : Nat} (hl : l < L.pages.length) {r : Rec} (hr : r ∈ L.pages[l]) : r ∈ L.all :=
  List.mem_append_left _ (List.mem_flatten.mpr ⟨_, List.getElem_mem hl, hr⟩)

theorem mem_live {L : Log} {m : Nat} {r : Rec} :
    r ∈ L.live m ↔ (∃ l, ∃ h : l < L.pages.length, m ≤ l ∧ r ∈ L.pages[l]) ∨ r ∈ L.buf := by
  unfold Log.live
  rw [List.mem_append]
  apply or_congr_left
  rw [List.mem_flatten]
  constructor
  · rintro ⟨pg, h1, h2⟩
    obtain ⟨i, hi, rfl⟩ := List.mem_iff_getElem.mp h1
    rw [List.length_drop] at hi
    refine ⟨m + i, by omega, by omega, ?_⟩
    rw [List.getElem_drop] at h2
    exact h2
  · rintro ⟨l, h, hm, hr⟩
    refine ⟨L.pages[l], ?_, hr⟩
    rw [List.mem_iff_getElem]
    refine ⟨l - m, by rw [List.length_drop]; omega, ?_⟩
    rw [List.getElem_drop]
    congr 1
    omega

theorem firstKey_eq {L : Log} {l : Nat} (hl : l < L.pages.length) (hne : L.pages[l] ≠ []) :
    firstKey L l = (L.pages[l].head hne).1 := by
  unfold firstKey
  rw [List.getD_eq_getElem?_getD, List.getElem?_eq_getElem hl, Option.getD_some]
  generalize L.pages[l] = pg at hne
  cases pg with
  | nil => exact absurd rfl hne
  | cons a t => rfl

section
variable {c : Cfg} {lo K a : Nat} {d : Data} {L : Log}

theorem Sim.sortedPage (S : Sim c lo K a d L) {l : Nat} (hl : l < L.pages.length) {p : Page}
    (hp : recs c p = L.pages[l]) : SortedPage c K p := by
  rw [sortedPage_iff, hp]
  exact ⟨Log_page_sorted S.sorted hl, fun r hr => (S.bound r (mem_all_page hl hr)).2⟩

theorem Sim.sortedBuf (S : Sim c lo K a d L) : SortedPage c K d.wbuf := by
  rw [sortedPage_iff, S.buf]
  exact ⟨Log_buf_sorted S.sorted, fun r hr => (S.bound r (List.mem_append_right _ hr)).2⟩

theorem Sim.firstKey_mono (S : Sim c lo K a d L) {l m : Nat} (hlm : l < m) (hm : m < L.pages.length) :
    firstKey L l < firstKey L m := by
  have h1 := S.full _ (List.getElem_mem (show l < L.pages.length by omega))
  have h2 := S.full _ (List.getElem_mem hm)
  rw [firstKey_eq (by omega) h1, firstKey_eq hm h2]
  exact Log_pages_sorted S.sorted hlm hm _ (List.head_mem h1) _ (List.head_mem h2)

theorem Sim.firstKey_bound (S : Sim c lo K a d L) {l : Nat} (hl : l < L.pages.length) :
    lo ≤ firstKey L l ∧ firstKey L l < K := by
  have h1 := S.full _ (List.getElem_mem hl)
  rw [firstKey_eq hl h1]
  exact S.bound _ (mem_all_page hl (List.head_mem h1))

theorem Sim.feed (S : Sim c lo K a d L) {P : Nat} (hB : Bounds c lo K P) (hP : d.next ≤ P) (ha : a < d.next) :
    Spline.Feed (firstKey L) d.spl.maxErr a d.next := by
  refine ⟨?_, ?_, by have := hB.pages; omega⟩
  · intro p q _ h2 h3
    exact S.firstKey_mono h2 (by rw [← S.next]; exact h3)
  · rw [S.err]
    refine lt_of_le_of_lt ?_ hB.prod
    have e := S.next
    have h1 := S.firstKey_bound (l := d.next - 1) (by omega)
    have h2 := S.firstKey_bound (l := a) (by omega)
    exact Nat.mul_le_mul (by omega) (by omega)

end

/-! ### Page reads -/

/-- `d'` is `d` with possibly another page in the read buffer. -/
structure SameButCache (d d' : Data) : Prop where
  dev : d'.dev = d.dev
  wbuf : d'.wbuf = d.wbuf
  next : d'.next = d.next
  min : d'.min = d.min
  avail : d'.avail = d.avail
  spl : d'.spl = d.spl
  rlcNext : d'.rlcNext = d.rlcNext
  rlcStart : d'.rlcStart = d.rlcStart

theorem SameButCache.refl (d : Data) : SameButCache d d := ⟨rfl, rfl, rfl, rfl, rfl, rfl, rfl, rfl⟩

theorem SameButCache.trans {d e f : Data} (h : SameButCache d e) (h' : SameButCache e f) : SameButCache d f :=
  ⟨h'.dev.trans h.dev, h'.wbuf.trans h.wbuf, h'.next.trans h.next, h'.min.trans h.min, h'.avail.trans h.avail,
    h'.spl.trans h.spl, h'.rlcNext.trans h.rlcNext, h'.rlcStart.trans h.rlcStart⟩

theorem readPage_same (d : Data) (ph : Nat) : SameButCache d (readPage d ph).1 := by
  unfold readPage
  split_ifs
  · exact SameButCache.refl d
  · split
    · exact SameButCache.refl d
    · exact ⟨rfl, rfl, rfl, rfl, rfl, rfl, rfl, rfl⟩

theorem readPage_reads (d : Data) (ph : Nat) :
    (readPage d ph).1.numReads ≤ d.numReads + 1 := by
  unfold readPage
  split_ifs
  · simp
  · split <;> simp

/-- The parts of the simulation that a page read may change are re-established. -/
theorem Sim.congr_cache {c : Cfg} {lo K a : Nat} {d d' : Data} {L : Log} (S : Sim c lo K a d L) (E : SameButCache d d')
    (hN : ∀ ph, d'.buffered = some ph → ph < c.N ∧ ph < d.next)
    (hc : ∀ ph, d'.buffered = some ph → ∀ l, d.min ≤ l → l < d.next → l % c.N = ph → d.dev.file ph = some d'.rbuf) :
    Sim c lo K a d' L where
  next := E.next.trans S.next
  amin := by rw [E.min]; exact S.amin
  minle := by rw [E.min, E.next]; exact S.minle
  live := by rw [E.min, E.next]; exact S.live
  window := by rw [E.min, E.next]; exact S.window
  stored := by rw [E.min, E.dev]; exact S.stored
  buf := by rw [E.wbuf]; exact S.buf
  full := S.full
  sorted := S.sorted
  bound := S.bound
  spl := by rw [E.spl, E.next]; exact S.spl
  err := by rw [E.spl]; exact S.err
  cacheN := by rw [E.next]; exact hN
  cache := by rw [E.min, E.next, E.dev]; exact hc

/-- Reading a live page succeeds and yields that page. -/
theorem Sim.readPage {c : Cfg} {lo K a : Nat} {d : Data} {L : Log} (S : Sim c lo K a d L) (hN : 0 < c.N) {l : Nat}
    (h1 : d.min ≤ l) (h2 : l < d.next) :
    ∃ d', readPage d (l % c.N) = (d', true) ∧ SameButCache d d' ∧ Sim c lo K a d' L ∧
      d'.buffered = some (l % c.N) ∧
      recs c d'.rbuf = L.pages.getD l [] ∧ pageId d'.rbuf = l % 2 ^ 32 ∧ d'.numReads ≤ d.numReads + 1 := by
  have hl : l < L.pages.length := by rw [← S.next]; exact h2
  obtain ⟨p, hp1, hp2, hp3⟩ := S.stored l h1 hl
  have hg : L.pages.getD l [] = L.pages[l] := by
    rw [List.getD_eq_getElem?_getD, List.getElem?_eq_getElem hl, Option.getD_some]
  have hreads := readPage_reads d (l % c.N)
  by_cases hb : d.buffered = some (l % c.N)
  · have hc := S.cache _ hb l h1 h2 rfl
    rw [hp1] at hc
    cases hc
    refine ⟨d, ?_, SameButCache.refl d, S, hb, by rw [hg]; exact hp2, hp3, by omega⟩
    unfold EDB.readPage; rw [if_pos hb]
  · have hr : EDB.readPage d (l % c.N) =
        ({ d with rbuf := p, buffered := some (l % c.N), numReads := d.numReads + 1 }, true) := by
      unfold EDB.readPage; rw [if_neg hb, hp1]
    refine ⟨_, hr, ⟨rfl, rfl, rfl, rfl, rfl, rfl, rfl, rfl⟩, ?_, rfl, by rw [hg]; exact hp2, hp3, le_refl _⟩
    refine S.congr_cache (d' := { d with rbuf := p, buffered := some (l % c.N), numReads := d.numReads + 1 })
      ⟨rfl, rfl, rfl, rfl, rfl, rfl, rfl, rfl⟩ ?_ ?_
    · intro ph h
      cases h
      exact ⟨Nat.mod_lt _ hN, lt_of_le_of_lt (Nat.mod_le _ _) h2⟩
    · intro ph h m hm1 hm2 hm3
      cases h
      exact hp1

end EDB
