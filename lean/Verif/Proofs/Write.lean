import Verif.Proofs.Lookup

/-! Helper lemmas: writing pages, `embedDBPut` and `embedDBFlush` on a state that represents a log. -/

namespace EDB

open Spec (Log)

/-! ### The spline invariant depends only on the pages added -/

namespace Spline

theorem Many.pt_range {s : Spline} {h : Nat → Nat} {a b : Nat} (M : Many s h a b) {i : Nat} (hi : i < s.count) :
    a ≤ (s.pt i).2 ∧ (s.pt i).2 < b := by
  have h1 := M.lo
  have h2 := M.last
  have h3 := M.two
  constructor
  · rcases Nat.eq_zero_or_pos i with h0 | h0
    · rw [h0]; exact h1
    · have := M.asc 0 i h0 hi; omega
  · rcases Nat.eq_or_lt_of_le (show i ≤ s.count - 1 by omega) with h0 | h0
    · rw [h0]; omega
    · have := M.asc i _ h0 (by omega); omega

theorem Many.congr {s : Spline} {h h' : Nat → Nat} {a b : Nat} (M : Many s h a b)
    (e : ∀ p, a ≤ p → p < b → h' p = h p) : Many s h' a b where
  temp := M.temp
  two := M.two
  pts i hi := by
    have r := M.pt_range hi
    rw [e _ r.1 r.2]; exact M.pts i hi
  asc := M.asc
  lo := M.lo
  last := M.last
  lastKey := by
    have r := M.pt_range (show s.count - 1 < s.count by have := M.two; omega)
    have := M.last
    rw [e _ (by omega) (by omega)]; exact M.lastKey
  lastLoc := M.lastLoc
  seg i hi := by
    intro p h1 h2
    have r1 := M.pt_range (show i < s.count by omega)
    have r2 := M.pt_range hi
    rw [e _ r1.1 r1.2, e _ r2.1 r2.2, e p (by omega) (by omega)]
    exact M.seg i hi p h1 h2
  up := by
    have r := M.pt_range (show s.count - 2 < s.count by have := M.two; omega)
    obtain ⟨u, u1, u2, u3, u4⟩ := M.up
    refine ⟨u, u1, u2, ?_, ?_⟩
    · rw [e _ (by omega) u2]; exact u3
    · intro p p1 p2
      rw [e _ r.1 r.2, e u (by omega) u2, e p (by omega) p2]
      exact u4 p p1 p2
  low := by
    have r := M.pt_range (show s.count - 2 < s.count by have := M.two; omega)
    obtain ⟨u, u1, u2, u3, u4⟩ := M.low
    refine ⟨u, u1, u2, ?_, ?_⟩
    · rw [e _ (by omega) u2]; exact u3
    · intro hP p p1 p2
      rw [e _ r.1 r.2, e u (by omega) u2, e p (by omega) p2]
      exact u4 hP p p1 p2

theorem Inv.congr {s : Spline} {h h' : Nat → Nat} {a b : Nat} (I : Inv s h a b)
    (e : ∀ p, a ≤ p → p < b → h' p = h p) : Inv s h' a b where
  le := I.le
  size4 := I.size4
  cnt := I.cnt
  numAdd := I.numAdd
  first hab := by rw [e a (le_refl _) hab]; exact I.first hab
  zero := I.zero
  one hab := by rw [e a (le_refl _) (by omega)]; exact I.one hab
  many hab := (I.many hab).congr e

end Spline

/-! ### Valid configurations -/

/-- What `embedDBInit` checks or computes for a plain table in spline mode (no record-level consistency), plus the
assumptions on the callbacks and the device. -/
structure Cfg.Ok (c : Cfg) (K : Nat) : Prop where
  B0 : 0 < c.B
  dvd : c.B ∣ c.N
  two : 2 * c.B ≤ c.N
  /-- `initBufferPage` stays inside the page (not checked by `embedDBInit`; see `C10_false_tiny_page`) -/
  page : minOff + c.keySize * 2 + c.dataSize ≤ c.pageSize
  cap : 0 < c.maxRec
  cap16 : c.maxRec ≤ 65535
  spl : 4 ≤ c.splSize
  layout : c.Layout
  cmp : CmpOk c.cmpKey K
  plain : c.rlc = false
  spline : c.binSearch = false
  io : ∀ n, c.ioOk n = true

theorem Cfg.Ok.N0 {c : Cfg} {K : Nat} (h : c.Ok K) : 0 < c.N := by have := h.B0; have := h.two; omega

/-- The free-space accounting. -/
structure Room (c : Cfg) (d : Data) : Prop where
  dvd : c.B ∣ d.min
  sum : d.next + d.avail = d.min + c.N

/-! ### One page write, explicitly -/

/-- The page image that `writePage` puts on the device. -/
def outPage (d : Data) : Page := wr d.wbuf 0 (leBytes 4 d.next)

/-- The device after `writePage`. -/
def outDev (c : Cfg) (d : Data) : Dev :=
  let ph := d.next % c.N
  { file := fun i => if i = ph then some (outPage d)
      else if d.avail = 0 ∧ ph ≤ i ∧ i < ph + c.B then c.eraseFx (d.dev.file i) else d.dev.file i
    log := d.dev.log ++ (if d.avail = 0 then [.erase ph (ph + c.B)] else []) ++ [.write ph (outPage d)]
    reqs := d.dev.reqs + (if d.avail = 0 then 2 else 1) }

/-- The spline after `cleanSpline`. -/
def outSpl (c : Cfg) (d : Data) : Spline :=
  if d.avail = 0 ∧ c.noClean = false then d.spl.clean (d.min + c.B) else d.spl

/-- The first retained page after `writePage`. -/
def outMin (c : Cfg) (d : Data) : Nat := if d.avail = 0 then d.min + c.B else d.min

/-- The state after `writePage`. -/
def outData (c : Cfg) (d : Data) : Data :=
  { d with dev := outDev c d, wbuf := outPage d, next := d.next + 1, min := outMin c d
           avail := (if d.avail = 0 then c.B else d.avail) - 1, spl := outSpl c d }

theorem writePage_eq {c : Cfg} (hio : ∀ n, c.ioOk n = true) (hbs : c.binSearch = false) (d : Data) :
    writePage c d = .ok (outData c d, some d.next) := by
  unfold writePage
  simp only
  by_cases ha : d.avail = 0
  · rw [if_pos ha]
    simp only [Dev.erase, hio, if_true]
    unfold cleanStep
    by_cases hc : c.noClean = true
    · simp only [hc, if_true, Res.ok_bind, Dev.write, hio]
      simp [outData, outDev, outSpl, outMin, outPage, ha, hc]
    · have hc' : c.noClean = false := by simpa using hc
      simp only [hc', hbs, if_false, Res.ok_bind, Dev.write, hio, if_true, Bool.false_eq_true]
      simp [outData, outDev, outSpl, outMin, outPage, ha, hc']
  · rw [if_neg ha]
    simp only [Dev.write, hio, if_true]
    simp [outData, outDev, outSpl, outMin, outPage, ha]

/-- The state after the page was written, indexed and the buffer cleared (end of `embedDBFlush`, start of a full
`embedDBPut`). -/
def sealed (c : Cfg) (d : Data) : Data :=
  { outData c d with spl := (outSpl c d).add (pageMinKey c (outPage d)) d.next, wbuf := initPage c }

theorem putPage_eq {c : Cfg} (hio : ∀ n, c.ioOk n = true) (hbs : c.binSearch = false) (d : Data) :
    putPage c d = .ok (sealed c d) := by
  unfold putPage
  rw [writePage_eq hio hbs, Res.ok_bind]
  simp only [indexPage, hbs, Bool.false_eq_true, if_false]
  rfl

theorem flushD_eq {c : Cfg} (hio : ∀ n, c.ioOk n = true) (hbs : c.binSearch = false) (d : Data) :
    flushD c d = if pageCount d.wbuf < 1 then .ok (d, 0, false) else .ok (sealed c d, 0, true) := by
  unfold flushD
  split_ifs with h
  · rfl
  · rw [writePage_eq hio hbs, Res.ok_bind]
    simp only [indexPage, hbs, Bool.false_eq_true, if_false]
    rfl

/-! ### Arithmetic of the ring of pages -/

theorem mod_inj_window {N l m : Nat} (h1 : l < m + N) (h2 : m < l + N) (h : l % N = m % N) : l = m := by
  have e1 := Nat.div_add_mod l N
  have e2 := Nat.div_add_mod m N
  rcases Nat.lt_trichotomy (l / N) (m / N) with hq | hq | hq
  · have : N * (l / N + 1) ≤ N * (m / N) := Nat.mul_le_mul_left _ hq
    rw [Nat.mul_add] at this; omega
  · rw [hq] at e1; omega
  · have : N * (m / N + 1) ≤ N * (l / N) := Nat.mul_le_mul_left _ hq
    rw [Nat.mul_add] at this; omega

/-- A page whose physical location lies in the block starting at the location of `m` is one of `m … m+B-1`. -/
theorem block_window {N B m l : Nat} (hN : 0 < N) (h0 : m ≤ l) (h1 : l < m + N)
    (h2 : m % N ≤ l % N) (h3 : l % N < m % N + B) : l < m + B := by
  have hd : l = m + (l - m) := by omega
  have hlt : l - m < N := by omega
  obtain ⟨x, hx⟩ : ∃ x, l - m = x := ⟨_, rfl⟩
  rw [hx] at hd hlt
  subst hd
  have hmN := Nat.mod_lt m hN
  by_cases hw : m % N + x < N
  · have : (m + x) % N = m % N + x := by
      rw [Nat.add_mod, Nat.mod_eq_of_lt hlt, Nat.mod_eq_of_lt hw]
    omega
  · have : (m + x) % N = m % N + x - N := by
      rw [Nat.add_mod, Nat.mod_eq_of_lt hlt, Nat.mod_eq_sub_mod (by omega), Nat.mod_eq_of_lt (by omega)]
    omega

/-! ### Sealing a page preserves the simulation -/

section
variable {c : Cfg} {lo K a : Nat} {d : Data} {L : Log}

theorem firstKey_append {l : Nat} (hl : l < L.pages.length) (pg : List Rec) (b : List Rec) :
    firstKey ⟨L.pages ++ [pg], b⟩ l = firstKey L l := by
  unfold firstKey
  simp only [List.getD_eq_getElem?_getD]
  rw [List.getElem?_append_left hl]

theorem firstKey_last (r : Rec) (t b : List Rec) :
    firstKey ⟨L.pages ++ [r :: t], b⟩ L.pages.length = r.1 := by
  unfold firstKey
  simp [List.getD_eq_getElem?_getD]

theorem Room.sealed (hB : 0 < c.B) (R : Room c d) : Room c (sealed c d) := by
  have h := R.sum
  unfold EDB.sealed outData outMin
  by_cases ha : d.avail = 0
  · simp only [ha, if_true]
    exact ⟨(Nat.dvd_add_right R.dvd).mpr (dvd_refl _), by simp only; omega⟩
  · simp only [ha, if_false]
    exact ⟨R.dvd, by simp only; omega⟩

theorem outMin_le (hok : c.Ok K) (h3 : d.min ≤ d.next) (R : Room c d) :
    d.min ≤ outMin c d ∧ outMin c d ≤ d.next ∧ d.next < outMin c d + c.N := by
  have h1 := R.sum
  have h2 := hok.two
  have h4 := hok.B0
  unfold outMin
  split_ifs <;> omega

/-- Pages still retained after the write are untouched on the device. -/
theorem outDev_keeps (hok : c.Ok K) (hml : d.min ≤ d.next) (R : Room c d) {l : Nat} (h1 : outMin c d ≤ l)
    (h2 : l < d.next) : (outDev c d).file (l % c.N) = d.dev.file (l % c.N) := by
  have hm := outMin_le hok hml R
  have hsum := R.sum
  unfold outDev
  simp only
  rw [if_neg (show ¬ (l % c.N = d.next % c.N) from fun h => by
    have := mod_inj_window (by omega) (by omega) h; omega)]
  by_cases ha : d.avail = 0
  · rw [if_neg]
    rintro ⟨-, h3, h4⟩
    have e : d.next % c.N = d.min % c.N := by
      have : d.next = d.min + c.N := by omega
      rw [this, Nat.add_mod_right]
    rw [e] at h3 h4
    have := block_window hok.N0 (by omega) (by omega) h3 h4
    unfold outMin at h1
    rw [if_pos ha] at h1
    omega
  · rw [if_neg (fun h => ha h.1)]

theorem outDev_new : (outDev c d).file (d.next % c.N) = some (outPage d) := by
  unfold outDev; simp

theorem outSpl_inv (S : Sim c lo K a d L) : Spline.Inv (outSpl c d) (firstKey L) a d.next := by
  unfold outSpl
  split_ifs
  · exact S.spl.clean _
  · exact S.spl

theorem outSpl_maxErr (S : Sim c lo K a d L) : (outSpl c d).maxErr = c.maxErr := by
  unfold outSpl
  split_ifs
  · rw [Spline.clean_maxErr]; exact S.err
  · exact S.err

/-- Completing the page in the write buffer. -/
theorem Sim.sealed (hok : c.Ok K) {P : Nat} (hB : Bounds c lo K P) (hstart : a = 0 ∨ c.maxErr ≤ 1)
    (S : Sim c lo K a d L) (R : Room c d) (hP : d.next + 1 ≤ P) (hne : L.buf ≠ [])
    (hcache : d.buffered ≠ some (d.next % c.N)) :
    Sim c lo K a (sealed c d) ⟨L.pages ++ [L.buf], []⟩ := by
  have hm := outMin_le hok S.minle R
  have hn := S.next
  have hrec : recs c (outPage d) = L.buf := by
    unfold outPage; rw [(sameRecs_id c d.wbuf d.next).recs]; exact S.buf
  have hall : (Log.all ⟨L.pages ++ [L.buf], []⟩) = L.all := by
    unfold Log.all; simp
  have hfull : ∀ pg ∈ L.pages ++ [L.buf], pg ≠ [] := by
    intro pg hpg
    rcases List.mem_append.mp hpg with h | h
    · exact S.full pg h
    · rw [List.mem_singleton.mp h]; exact hne
  have hlen : (L.pages ++ [L.buf]).length = d.next + 1 := by simp [hn]
  -- the simulation except for the spline, which also gives the facts about first keys
  have hpre : ∀ s, Spline.Inv s (firstKey ⟨L.pages ++ [L.buf], []⟩) a (d.next + 1) → s.maxErr = c.maxErr →
      Sim c lo K a { EDB.sealed c d with spl := s } ⟨L.pages ++ [L.buf], []⟩ := by
    intro s hs he
    refine ⟨?_, ?_, ?_, ?_, ?_, ?_, recs_init c, hfull, ?_, ?_, hs, he, ?_, ?_⟩
    · rw [hlen]; rfl
    · have := S.amin; show a ≤ outMin c d; omega
    · show outMin c d ≤ d.next + 1; omega
    · intro _; show outMin c d < d.next + 1; omega
    · show d.next + 1 ≤ outMin c d + c.N; omega
    · intro l hl1 hl2
      show ∃ p, (outDev c d).file (l % c.N) = some p ∧ _
      have hl1' : outMin c d ≤ l := hl1
      simp only [hlen] at hl2
      by_cases hl : l < d.next
      · rw [outDev_keeps hok S.minle R hl1' hl]
        have hll : l < L.pages.length := by omega
        obtain ⟨p, p1, p2, p3⟩ := S.stored l (by omega) hll
        refine ⟨p, p1, ?_, p3⟩
        simp only
        rw [List.getElem_append_left hll]
        exact p2
      · have hl' : l = d.next := by omega
        subst hl'
        refine ⟨_, outDev_new, ?_, pageId_wr _ _⟩
        rw [hrec]
        exact (List.getElem_concat_length hn _).symm
    · rw [hall]; exact S.sorted
    · rw [hall]; exact S.bound
    · intro ph hph
      have := S.cacheN ph hph
      exact ⟨this.1, show ph < d.next + 1 by omega⟩
    · intro ph hph l hl1 hl2 hl3
      have hl1' : outMin c d ≤ l := hl1
      have hl2' : l < d.next + 1 := hl2
      have hph' : d.buffered = some ph := hph
      show (outDev c d).file ph = some d.rbuf
      by_cases hl : l < d.next
      · have := outDev_keeps hok S.minle R hl1' hl
        rw [hl3] at this
        rw [this]
        exact S.cache ph hph' l (by omega) hl hl3
      · have hl' : l = d.next := by omega
        subst hl'
        rw [hl3] at hcache
        exact absurd hph' hcache
  have hfirst : pageMinKey c (outPage d) = firstKey ⟨L.pages ++ [L.buf], []⟩ d.next := by
    rw [hn]
    cases hb : L.buf with
    | nil => exact absurd hb hne
    | cons r t =>
      rw [firstKey_last]
      exact pageMinKey_eq (hrec.trans hb)
  have hI : Spline.Inv (outSpl c d) (firstKey ⟨L.pages ++ [L.buf], []⟩) a d.next :=
    (outSpl_inv S).congr (fun p _ hp => firstKey_append (by omega) _ _)
  have hE := outSpl_maxErr S
  have hlast : L.pages.length < (L.pages ++ [L.buf]).length := by simp
  have hF : Spline.Feed (firstKey ⟨L.pages ++ [L.buf], []⟩) (outSpl c d).maxErr a (d.next + 1) := by
    have hsort : (Log.all ⟨L.pages ++ [L.buf], []⟩).Pairwise (fun r s => r.1 < s.1) := by rw [hall]; exact S.sorted
    have hmono : ∀ p q, p < q → q < d.next + 1 →
        firstKey ⟨L.pages ++ [L.buf], []⟩ p < firstKey ⟨L.pages ++ [L.buf], []⟩ q := by
      intro p q h1 h2
      have hq : q < (L.pages ++ [L.buf]).length := by omega
      have hp : p < (L.pages ++ [L.buf]).length := by omega
      have n1 := hfull _ (List.getElem_mem hp)
      have n2 := hfull _ (List.getElem_mem hq)
      rw [firstKey_eq hp n1, firstKey_eq hq n2]
      exact Log_pages_sorted hsort h1 hq _ (List.head_mem n1) _ (List.head_mem n2)
    have hbd : ∀ p, p < d.next + 1 → lo ≤ firstKey ⟨L.pages ++ [L.buf], []⟩ p ∧
        firstKey ⟨L.pages ++ [L.buf], []⟩ p < K := by
      intro p hp
      have hp' : p < (L.pages ++ [L.buf]).length := by omega
      have n1 := hfull _ (List.getElem_mem hp')
      rw [firstKey_eq hp' n1]
      exact S.bound _ (by rw [← hall]; exact mem_all_page hp' (List.head_mem n1))
    refine ⟨fun p q _ h2 h3 => hmono p q h2 h3, ?_, by have := hB.pages; omega⟩
    rw [hE]
    refine lt_of_le_of_lt ?_ hB.prod
    have hle := S.amin
    have h1 := hbd (d.next + 1 - 1) (by omega)
    have h2 := hbd a (by omega)
    exact Nat.mul_le_mul (by omega) (by omega)
  have hadd := hI.add (by rw [hE]; exact hstart) hF
  rw [← hfirst] at hadd
  have := hpre _ hadd (by rw [Spline.add_maxErr]; exact hE)
  exact this

/-- Appending a record to the write buffer. -/
theorem Sim.append (hL : c.Layout) (S : Sim c lo K a d L) (hK : K ≤ 256 ^ c.keySize) {key : Nat} {data : List Byte}
    (loc : Nat) (hd : data.length = c.dataSize) (hlo : lo ≤ key) (hk : key < K) (hn : L.buf.length < 65535)
    (hgt : ∀ r ∈ L.all, r.1 < key) :
    Sim c lo K a { d with wbuf := appendRec c d.wbuf key data loc } ⟨L.pages, L.buf ++ [(key, data)]⟩ := by
  have hcount : pageCount d.wbuf = L.buf.length := by rw [← S.buf, recs_length]
  have hall : (Log.all ⟨L.pages, L.buf ++ [(key, data)]⟩) = L.all ++ [(key, data)] := by
    unfold Log.all; simp
  refine ⟨S.next, S.amin, S.minle, S.live, S.window, S.stored, ?_, S.full, ?_, ?_, S.spl, S.err, S.cacheN, S.cache⟩
  · show recs c (appendRec c d.wbuf key data loc) = _
    rw [recs_append hL _ _ _ _ hd (by omega) (by omega), S.buf]
  · rw [hall, List.pairwise_append]
    refine ⟨S.sorted, List.pairwise_singleton _ _, ?_⟩
    intro x hx y hy
    rw [List.mem_singleton.mp hy]
    exact hgt x hx
  · rw [hall]
    intro r hr
    rcases List.mem_append.mp hr with h | h
    · exact S.bound r h
    · rw [List.mem_singleton.mp h]; exact ⟨hlo, hk⟩

/-! ### `embedDBPut` -/

theorem mem_all_buf {r : Rec} (h : r ∈ L.buf) : r ∈ L.all := List.mem_append_right _ h

/-- The largest key of a log with a non-empty buffer. -/
theorem Log_last_buf (hs : L.all.Pairwise (fun r s => r.1 < s.1)) {t : List Rec} {r : Rec} (hb : L.buf = t ++ [r]) {key : Nat} :
    r.1 < key ↔ ∀ x ∈ L.all, x.1 < key := by
  have e : L.all = (L.pages.flatten ++ t) ++ [r] := by unfold Log.all; rw [hb, List.append_assoc]
  constructor
  · intro h x hx
    rw [e] at hs hx
    rcases List.mem_append.mp hx with h1 | h1
    · have := (List.pairwise_append.mp hs).2.2 x h1 r (by simp); omega
    · rw [List.mem_singleton.mp h1]; exact h
  · intro h
    exact h r (by rw [e]; simp)

/-- The order check with records in the buffer. -/
theorem orderCheck_buf (hc : CmpOk c.cmpKey K) (S : Sim c lo K a d L) {key : Nat} (hk : key < K) (hne : L.buf ≠ []) :
    orderCheck c d key = (d, decide (∀ x ∈ L.all, x.1 < key)) := by
  have hcount : pageCount d.wbuf = L.buf.length := by rw [← S.buf, recs_length]
  have hpos : 0 < L.buf.length := List.length_pos_iff.mpr hne
  unfold orderCheck
  simp only
  rw [if_pos (show d.next > 0 ∨ pageCount d.wbuf > 0 by omega), if_neg (show ¬ pageCount d.wbuf = 0 by omega)]
  obtain ⟨t, r, hb⟩ : ∃ t r, L.buf = t ++ [r] := ⟨L.buf.dropLast, L.buf.getLast hne, (List.dropLast_concat_getLast hne).symm⟩
  have hmax : slotKey c d.wbuf (pageCount d.wbuf - 1) = r.1 := pageMaxKey_eq (S.buf.trans hb)
  have hr : r.1 < K := (S.bound r (mem_all_buf (by rw [hb]; simp))).2
  rw [hmax]
  congr 1
  rw [decide_eq_decide, hc.gt _ _ hk hr]
  exact Log_last_buf S.sorted hb

/-- The order check on an empty table. -/
theorem orderCheck_empty (S : Sim c lo K a d L) {key : Nat} (hp : L.pages = []) (hb : L.buf = []) :
    orderCheck c d key = (d, true) := by
  have hcount : pageCount d.wbuf = L.buf.length := by rw [← S.buf, recs_length]
  have hn := S.next
  rw [hp, List.length_nil] at hn
  rw [hb, List.length_nil] at hcount
  unfold orderCheck
  simp only
  rw [if_neg (show ¬ (d.next > 0 ∨ pageCount d.wbuf > 0) by omega)]

/-- The order check with an empty buffer reads the last page; it is exact if that page is full. -/
theorem orderCheck_page (hok : c.Ok K) (S : Sim c lo K a d L) {key : Nat} (hk : key < K) (hb : L.buf = [])
    {ps : List (List Rec)} {pg : List Rec} (hp : L.pages = ps ++ [pg]) :
    ∃ d' b, orderCheck c d key = (d', b) ∧ SameButCache d d' ∧ Sim c lo K a d' L ∧
      (pg.length = c.maxRec → (b = true ↔ ∀ x ∈ L.all, x.1 < key)) := by
  have hcount : pageCount d.wbuf = L.buf.length := by rw [← S.buf, recs_length]
  rw [hb, List.length_nil] at hcount
  have hn := S.next
  have hlen : L.pages.length = ps.length + 1 := by rw [hp]; simp
  have hlive := S.live (by omega)
  obtain ⟨d', e1, e2, e3, -, e5, -, -⟩ := S.readPage hok.N0 (l := d.next - 1) (by omega) (by omega)
  unfold orderCheck
  simp only
  rw [if_pos (show d.next > 0 ∨ pageCount d.wbuf > 0 by omega), if_pos hcount, e1]
  refine ⟨d', _, rfl, e2, e3, ?_⟩
  intro hfull
  have hg : L.pages.getD (d.next - 1) [] = pg := by
    have : d.next - 1 = ps.length := by omega
    rw [hp, this]
    simp [List.getD_eq_getElem?_getD]
  rw [hg] at e5
  have hcap := hok.cap
  have hne : pg ≠ [] := by intro h; rw [h, List.length_nil] at hfull; omega
  obtain ⟨t, r, ht⟩ : ∃ t r, pg = t ++ [r] := ⟨pg.dropLast, pg.getLast hne, (List.dropLast_concat_getLast hne).symm⟩
  have hpc : pageCount d'.rbuf = c.maxRec := by rw [← recs_length c, e5, hfull]
  have hmax : slotKey c d'.rbuf (c.maxRec - 1) = r.1 := by
    rw [← hpc]; exact pageMaxKey_eq (e5.trans ht)
  have eall : L.all = (ps.flatten ++ t) ++ [r] := by
    unfold Log.all; rw [hp, hb, ht]; simp
  have hr : r.1 < K := (S.bound r (by rw [eall]; simp)).2
  rw [hmax]
  rw [decide_eq_true_eq, hok.cmp.gt _ _ hk hr]
  have hs := S.sorted
  constructor
  · intro h x hx
    rw [eall] at hs hx
    rcases List.mem_append.mp hx with h1 | h1
    · have := (List.pairwise_append.mp hs).2.2 x h1 r (by simp); omega
    · rw [List.mem_singleton.mp h1]; exact h
  · intro h
    exact h r (by rw [eall]; simp)

/-- Pages and buffer hold at most `cap` records. -/
def Capped (cap : Nat) (L : Log) : Prop := (∀ pg ∈ L.pages, pg.length ≤ cap) ∧ L.buf.length ≤ cap

theorem Capped.put {cap : Nat} (h : Capped cap L) (h0 : 0 < cap) (r : Rec) : Capped cap (L.put cap r) := by
  unfold Log.put
  split_ifs with hf
  · refine ⟨?_, ?_⟩
    · intro pg hpg
      rcases List.mem_append.mp hpg with h1 | h1
      · exact h.1 pg h1
      · rw [List.mem_singleton.mp h1]; exact h.2
    · show [r].length ≤ cap
      simp only [List.length_singleton]; omega
  · refine ⟨h.1, ?_⟩
    show (L.buf ++ [r]).length ≤ cap
    rw [List.length_append, List.length_singleton]
    omega

theorem Capped.flush {cap : Nat} (h : Capped cap L) : Capped cap L.flush := by
  unfold Log.flush
  split_ifs with hf
  · exact h
  · refine ⟨?_, Nat.zero_le _⟩
    intro pg hpg
    rcases List.mem_append.mp hpg with h1 | h1
    · exact h.1 pg h1
    · rw [List.mem_singleton.mp h1]; exact h.2

theorem Room.congr {d' : Data} (R : Room c d) (E : SameButCache d d') : Room c d' :=
  ⟨by rw [E.min]; exact R.dvd, by rw [E.min, E.next, E.avail]; exact R.sum⟩

/-- What `embedDBPut` does after the order check accepted the key. -/
def accepted (c : Cfg) (d : Data) (key : Nat) (data : List Byte) (loc : Nat) : Data :=
  let d1 := if pageCount d.wbuf ≥ c.maxRec then EDB.sealed c d else d
  { d1 with wbuf := appendRec c d1.wbuf key data loc }

theorem putD_eq (hok : c.Ok K) (d : Data) (key : Nat) (data : List Byte) (loc : Nat) :
    putD c d key data loc = if (orderCheck c d key).2 then
      .ok (accepted c (orderCheck c d key).1 key data loc, 0, decide (pageCount (orderCheck c d key).1.wbuf ≥ c.maxRec))
      else .ok ((orderCheck c d key).1, 1, false) := by
  unfold putD
  obtain ⟨d1, b, h⟩ : ∃ d1 b, orderCheck c d key = (d1, b) := ⟨_, _, rfl⟩
  rw [h]
  simp only
  cases b with
  | false => simp
  | true =>
    simp only [if_true]
    unfold accepted
    by_cases hf : pageCount d1.wbuf ≥ c.maxRec
    · rw [if_pos hf, putPage_eq hok.io hok.spline]
      simp [finishPut, hok.plain, hf]
    · rw [if_neg hf]
      simp [finishPut, hok.plain, hf]

/-- Accepting a record that is larger than all others. -/
theorem Sim.accepted (hok : c.Ok K) {P : Nat} (hB : Bounds c lo K P) (hstart : a = 0 ∨ c.maxErr ≤ 1)
    (S : Sim c lo K a d L) (R : Room c d) (hP : d.next + 1 ≤ P) {key : Nat} {data : List Byte}
    (loc : Nat) (hd : data.length = c.dataSize) (hlo : lo ≤ key) (hk : key < K) (hgt : ∀ r ∈ L.all, r.1 < key)
    (hcache : L.buf.length ≥ c.maxRec → d.buffered ≠ some (d.next % c.N)) :
    Sim c lo K a (accepted c d key data loc) (L.put c.maxRec (key, data)) ∧ Room c (accepted c d key data loc) := by
  have hcount : pageCount d.wbuf = L.buf.length := by rw [← S.buf, recs_length]
  have hcap := hok.cap
  have hcap16 := hok.cap16
  unfold EDB.accepted Log.put
  rw [hcount]
  by_cases hf : L.buf.length ≥ c.maxRec
  · rw [if_pos hf, if_pos hf]
    have hne : L.buf ≠ [] := by intro h; rw [h, List.length_nil] at hf; omega
    have S1 := S.sealed hok hB hstart R hP hne (hcache hf)
    have R1 := R.sealed hok.B0
    have := S1.append hok.layout hB.key loc hd hlo hk (by simp) (by
      intro r hr
      have e : (Log.all ⟨L.pages ++ [L.buf], []⟩) = L.all := by unfold Log.all; simp
      rw [e] at hr
      exact hgt r hr)
    exact ⟨this, ⟨R1.dvd, R1.sum⟩⟩
  · rw [if_neg hf, if_neg hf]
    have := S.append hok.layout hB.key loc hd hlo hk (by omega) hgt
    exact ⟨this, ⟨R.dvd, R.sum⟩⟩

/-- `embedDBPut` of a key larger than all stored ones: accepted (and appended) or rejected (and nothing changed). -/
theorem put_ok (hok : c.Ok K) {P : Nat} (hB : Bounds c lo K P) (hstart : a = 0 ∨ c.maxErr ≤ 1)
    (S : Sim c lo K a d L) (R : Room c d) (C : Capped c.maxRec L) (hP : d.next + 1 ≤ P) {key : Nat} {data : List Byte}
    (loc : Nat) (hd : data.length = c.dataSize) (hlo : lo ≤ key) (hk : key < K) (hgt : ∀ r ∈ L.all, r.1 < key)
    (hcache : L.buf.length ≥ c.maxRec → d.buffered ≠ some (d.next % c.N)) :
    ∃ d' wrote, (putD c d key data loc = .ok (d', 0, wrote) ∧ Sim c lo K a d' (L.put c.maxRec (key, data)) ∧
        Room c d' ∧ Capped c.maxRec (L.put c.maxRec (key, data))) ∨
      (putD c d key data loc = .ok (d', 1, wrote) ∧ Sim c lo K a d' L ∧ Room c d' ∧ SameButCache d d' ∧
        L.buf = [] ∧ ∃ ps pg, L.pages = ps ++ [pg] ∧ pg.length ≠ c.maxRec) := by
  rw [putD_eq hok]
  by_cases hb : L.buf = []
  · rcases List.eq_nil_or_concat L.pages with hp | ⟨ps, pg, hp⟩
    · rw [orderCheck_empty S hp hb]
      simp only [if_true]
      have := S.accepted hok hB hstart R hP loc hd hlo hk hgt hcache
      exact ⟨_, _, Or.inl ⟨rfl, this.1, this.2, C.put hok.cap _⟩⟩
    · rw [List.concat_eq_append] at hp
      obtain ⟨d', b, e1, e2, e3, e4⟩ := orderCheck_page hok S hk hb hp
      rw [e1]
      simp only
      cases b with
      | true =>
        simp only [if_true]
        have := e3.accepted hok hB hstart (R.congr e2) (by rw [e2.next]; exact hP) loc hd hlo hk hgt (by
          intro h; rw [hb, List.length_nil] at h; have := hok.cap; omega)
        exact ⟨_, _, Or.inl ⟨rfl, this.1, this.2, C.put hok.cap _⟩⟩
      | false =>
        simp only [Bool.false_eq_true, if_false]
        refine ⟨_, _, Or.inr ⟨rfl, e3, R.congr e2, e2, hb, ps, pg, hp, ?_⟩⟩
        intro h
        have := (e4 h).mpr hgt
        cases this
  · rw [orderCheck_buf hok.cmp S hk hb]
    rw [decide_eq_true hgt]
    simp only [if_true]
    have := S.accepted hok hB hstart R hP loc hd hlo hk hgt hcache
    exact ⟨_, _, Or.inl ⟨rfl, this.1, this.2, C.put hok.cap _⟩⟩

/-- `embedDBFlush` (data part). -/
theorem flush_ok (hok : c.Ok K) {P : Nat} (hB : Bounds c lo K P) (hstart : a = 0 ∨ c.maxErr ≤ 1)
    (S : Sim c lo K a d L) (R : Room c d) (C : Capped c.maxRec L) (hP : d.next + 1 ≤ P)
    (hcache : L.buf ≠ [] → d.buffered ≠ some (d.next % c.N)) :
    ∃ d' wrote, flushD c d = .ok (d', 0, wrote) ∧ Sim c lo K a d' L.flush ∧ Room c d' ∧ Capped c.maxRec L.flush ∧
      d' = (if L.buf = [] then d else sealed c d) := by
  have hcount : pageCount d.wbuf = L.buf.length := by rw [← S.buf, recs_length]
  rw [flushD_eq hok.io hok.spline]
  by_cases hb : L.buf = []
  · rw [if_pos (show pageCount d.wbuf < 1 by rw [hcount, hb]; simp)]
    refine ⟨d, _, rfl, ?_, R, C.flush, by rw [if_pos hb]⟩
    unfold Log.flush
    rw [if_pos hb]
    exact S
  · have : 0 < L.buf.length := List.length_pos_iff.mpr hb
    rw [if_neg (show ¬ pageCount d.wbuf < 1 by omega)]
    refine ⟨_, _, rfl, ?_, R.sealed hok.B0, C.flush, by rw [if_neg hb]⟩
    unfold Log.flush
    rw [if_neg hb]
    exact S.sealed hok hB hstart R hP hb (hcache hb)

end

end EDB
