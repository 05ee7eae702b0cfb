import Verif.Model.Estimate
import Verif.Proofs.Float
import Verif.Proofs.Lookup
import Verif.Proofs.Recover

/-! Helper lemmas: the floating point estimates on a sorted page. -/

namespace EDB

open Spec (Rnd Log)

open FloatR

/-- The quotient of a key offset within the page and the page's slope is at most twice the number of records. -/
theorem quotient_le (r : Rnd 24) {k D m : ℕ} (hk : k ≤ D) (hD : 0 < D) (hD64 : D < 2 ^ 64) (hm : 0 < m) (hm2 : m ≤ 2 ^ 16) :
    0 < r.f (r.f D / r.f m) ∧ 0 ≤ r.f (r.f k / r.f (r.f D / r.f m)) ∧
      r.f (r.f k / r.f (r.f D / r.f m)) ≤ (2 * m : ℕ) := by
  have hrm : r.f m = m := FloatR.nat r m (le_trans hm2 (by norm_num))
  have hmq : (0 : ℚ) < m := by exact_mod_cast hm
  have hm16 : (m : ℚ) ≤ 65536 := by have : m ≤ 65536 := by simpa using hm2
                                    exact_mod_cast this
  have hD1 : (1 : ℚ) ≤ r.f D := by
    have := r.mono 1 D (by norm_num) (by exact_mod_cast hD)
    rwa [one] at this
  have hDu : r.f D ≤ 2 ^ (64 : ℤ) := by
    have := r.mono D (2 ^ (64 : ℤ)) (by positivity) (by
      have : ((D : ℕ) : ℚ) ≤ ((2 ^ 64 : ℕ) : ℚ) := by exact_mod_cast hD64.le
      refine this.trans ?_
      push_cast
      norm_num)
    rwa [FloatR.pow r 64 (by norm_num) (by norm_num)] at this
  have hkD : r.f k ≤ r.f D := r.mono _ _ (by positivity) (by exact_mod_cast hk)
  have hk0 : 0 ≤ r.f k := FloatR.nonneg r (by positivity)
  rw [hrm]
  set q := r.f D / m with hq
  have hqlo : (1 : ℚ) / 65536 ≤ q := by
    rw [hq, div_le_div_iff₀ (by norm_num) hmq]
    nlinarith
  have hqhi : q ≤ 2 ^ (64 : ℤ) := by
    rw [hq, div_le_iff₀ hmq]
    have : (1 : ℚ) ≤ m := by exact_mod_cast hm
    have h64 : (0 : ℚ) < 2 ^ (64 : ℤ) := by positivity
    nlinarith
  have hhalf := half r (x := q) (le_trans (by norm_num) hqlo) (lt_of_le_of_lt hqhi (by norm_num))
  have hqpos : 0 < q := lt_of_lt_of_le (by norm_num) hqlo
  have hs : 0 < r.f q := by linarith
  refine ⟨hs, FloatR.nonneg r (div_nonneg hk0 hs.le), ?_⟩
  have h1 : r.f k / r.f q ≤ (2 * m : ℕ) := by
    rw [div_le_iff₀ hs]
    have e : q * m = r.f D := by rw [hq]; field_simp
    push_cast
    nlinarith
  have h2 := r.mono _ _ (div_nonneg hk0 hs.le) h1
  rwa [FloatR.nat r (2 * m) (by omega)] at h2

theorem subMod_le {m a b : ℕ} (h : b ≤ a) (ha : a < m) : subMod m a b = a - b := by
  unfold subMod
  rw [Nat.mod_eq_of_lt (lt_of_le_of_lt h ha), show a + m - b = (a - b) + m by omega, Nat.add_mod_right,
    Nat.mod_eq_of_lt (by omega)]

theorem keyMod_ge {c : Cfg} (h8 : c.keySize ≤ 8) : 256 ^ c.keySize ≤ keyMod c := by
  unfold keyMod
  split_ifs with h
  · exact le_trans (Nat.pow_le_pow_right (by norm_num) h) (by norm_num)
  · exact le_trans (Nat.pow_le_pow_right (by norm_num) h8) (by norm_num)

theorem keyMod_le (c : Cfg) : keyMod c ≤ 2 ^ 64 := by unfold keyMod; split_ifs <;> norm_num

/-- The quotients `getMaxError` and `embedDBEstimateKeyLocation` compute for a key between the smallest and the largest
key of a sorted page. -/
theorem quotient_page (r : Rnd 24) {c : Cfg} {K : Nat} {p : Page} (hs : SortedPage c K p) (h8 : c.keySize ≤ 8)
    (hcnt : pageCount p ≤ 2 ^ 14) {key : Nat} (hlo : pageMinKey c p ≤ key) (hhi : key ≤ pageMaxKey c p) :
    0 < slopeOf r c p ∧ 0 ≤ r.f (r.f ((key - pageMinKey c p : ℕ) : ℚ) / slopeOf r c p) ∧
      r.f (r.f ((key - pageMinKey c p : ℕ) : ℚ) / slopeOf r c p) < 2 ^ 15 := by
  have hmin : pageMinKey c p = slotKey c p 0 := rfl
  have hmax : pageMaxKey c p = slotKey c p (pageCount p - 1) := rfl
  unfold slopeOf
  simp only
  by_cases h1 : pageCount p - 1 = 0
  · have e : (if pageCount p = 0 then 0 else pageCount p - 1) = 0 := by split_ifs <;> omega
    rw [e, if_pos rfl]
    have : key - pageMinKey c p = 0 := by rw [hmin]; rw [hmax, h1] at hhi; omega
    rw [this]
    simp only [Nat.cast_zero, FloatR.zero, zero_div]
    norm_num
  · have e : (if pageCount p = 0 then 0 else pageCount p - 1) = pageCount p - 1 := by split_ifs <;> omega
    rw [e, if_neg h1]
    have hlt := hs.asc 0 (pageCount p - 1) (by omega) (by omega)
    have hb := slotKey_lt c p (pageCount p - 1)
    have hM := keyMod_ge h8
    have hM2 := keyMod_le c
    rw [subMod_le hlt.le (lt_of_lt_of_le hb hM)]
    rw [hmin] at hlo ⊢
    rw [hmax] at hhi
    obtain ⟨q1, q2, q3⟩ := quotient_le r (k := key - slotKey c p 0)
      (D := slotKey c p (pageCount p - 1) - slotKey c p 0) (m := pageCount p - 1) (by omega) (by omega) (by omega)
      (by omega) (by omega)
    refine ⟨q1, q2, lt_of_le_of_lt q3 ?_⟩
    have : (2 * (pageCount p - 1)) < 2 ^ 15 := by omega
    exact_mod_cast this

theorem toSigned_ok {b : ℕ} {v : ℚ} (h : v < b) : toSigned b v = .ok ⌊v⌋ := by unfold toSigned; rw [if_pos h]

/-- The estimate of a key between the smallest and the largest key of a sorted page is defined. -/
theorem estimateLoc_ok (r : Rnd 24) {c : Cfg} {K : Nat} {p : Page} (hs : SortedPage c K p) (h8 : c.keySize ≤ 8)
    (hcnt : pageCount p ≤ 2 ^ 14) {key : Nat} (hlo : pageMinKey c p ≤ key) (hhi : key ≤ pageMaxKey c p) :
    ∃ e, estimateLoc r c p key = .ok e := by
  obtain ⟨q1, q2, q3⟩ := quotient_page r hs h8 hcnt hlo hhi
  have hb : key < 2 ^ 64 := by
    have h1 := slotKey_lt c p (pageCount p - 1)
    have h2 : pageMaxKey c p = slotKey c p (pageCount p - 1) := rfl
    have h3 := keyMod_ge h8
    have h4 := keyMod_le c
    omega
  unfold estimateLoc
  simp only
  rw [if_neg q1.ne', subMod_le hlo hb, toSigned_ok (by push_cast; exact q3)]
  exact ⟨_, rfl⟩

/-- `c.est` is the floating point estimate wherever that is defined. -/
def Estimates (r : Rnd 24) (c : Cfg) : Prop := ∀ p key e, estimateLoc r c p key = .ok e → c.est p key = e

section
variable {r : Rnd 24} {c : Cfg} {lo K a : Nat} {L : Log}

theorem searchNodeF_eq (hE : Estimates r c) {p : Page} {key : Nat} {e : Int} (h : estimateLoc r c p key = .ok e) :
    searchNodeF r c p key = searchNode c p key := by
  unfold searchNodeF searchNode
  rw [h, Res.ok_bind, hE p key e h]

/-- `sn` searches the pages for which the floating point estimate is defined as `searchNode` does. -/
def SearchesAs (sn : Page → Nat → Res (Option Nat)) (r : Rnd 24) (c : Cfg) : Prop := ∀ p key e,
  0 < pageCount p → pageCount p ≤ c.maxRec → estimateLoc r c p key = .ok e → sn p key = searchNode c p key

theorem searchesAs_F (hE : Estimates r c) : SearchesAs (searchNodeF r c) r c := fun _ _ _ _ _ h => searchNodeF_eq hE h

variable {sn : Page → Nat → Res (Option Nat)}

theorem searchBufferW_eq {p : Page} {key : Nat} (h : sn p key = searchNode c p key) :
    searchBufferW sn c p key = searchBuffer c p key := by
  unfold searchBufferW searchBuffer
  rw [h]
  generalize searchNode c p key = x
  rcases x with (_ | _) | _ | _ <;> rfl

theorem getStoredW_eq (hE : SearchesAs sn r c) (h8 : c.keySize ≤ 8) (hcap : c.maxRec ≤ 2 ^ 14) (hc : CmpOk c.cmpKey K)
    (hN : 0 < c.N) {P : Nat} (hB : Bounds c lo K P) (hbs : c.binSearch = false) {key : Nat} (hk : key < K) {d : Data}
    (S : Sim c lo K a d L) (hP : d.next ≤ P) (hnext : 0 < d.next) (hpg : ∀ g ∈ L.pages, g.length ≤ c.maxRec) :
    getStoredW sn c d key = getStored c d key := by
  obtain ⟨d', b, e1, e2, e3, e4, e5, e6⟩ := splineSearch_ok hc hN hB hk S hP hnext
  unfold getStoredW getStored
  simp only [hbs, Bool.false_eq_true, if_false, e1, Res.ok_bind]
  cases b with
  | false => rfl
  | true =>
    obtain ⟨q, q1, q2, q3, ⟨⟨x, x1, x2⟩, ⟨y, y1, y2⟩⟩, -⟩ := e5 rfl
    have hql : q < L.pages.length := by rw [← S.next]; exact q2
    have hg := getD_page hql
    rw [hg] at q3 x1 y1
    have hs := S.sortedPage hql q3
    rw [← q3] at x1 y1
    have h1 := minKey_le hs x1
    have h2 := le_maxKey hs y1
    have hlen : pageCount d'.rbuf ≤ c.maxRec := by
      rw [← recs_length c, q3]; exact hpg _ (List.getElem_mem hql)
    obtain ⟨e, he⟩ := estimateLoc_ok r hs h8 (by omega) (key := key) (by omega) (by omega)
    simp only [if_true]
    rw [hE _ _ _ (by rw [← recs_length c]; exact List.length_pos_of_mem x1) hlen he]
    generalize searchNode c d'.rbuf key = x
    rcases x with (_ | _) | _ | _ <;> rfl

/-- A lookup makes no undefined conversion once a page was written, or when the key is within the write buffer. -/
theorem getW_eq (hE : SearchesAs sn r c) (h8 : c.keySize ≤ 8) (hcap : c.maxRec ≤ 2 ^ 14) (hc : CmpOk c.cmpKey K)
    (hN : 0 < c.N) {P : Nat} (hB : Bounds c lo K P) (hbs : c.binSearch = false) {key : Nat} (hk : key < K) {d : Data}
    (S : Sim c lo K a d L) (hP : d.next ≤ P) (hpg : ∀ g ∈ L.pages, g.length ≤ c.maxRec) (hbuf : L.buf.length ≤ c.maxRec)
    (hnext : d.next = 0 → L.buf ≠ [] → (∃ x ∈ L.buf, x.1 ≤ key) ∧ ∃ y ∈ L.buf, key ≤ y.1) :
    getW sn c d key = get c d key := by
  have hcount : pageCount d.wbuf = L.buf.length := by rw [← S.buf, recs_length]
  have inside : L.buf ≠ [] → pageMinKey c d.wbuf ≤ key → key ≤ pageMaxKey c d.wbuf →
      searchBufferW sn c d.wbuf key = searchBuffer c d.wbuf key := by
    intro hb h1 h2
    obtain ⟨e, he⟩ := estimateLoc_ok r S.sortedBuf h8 (by omega) h1 h2
    exact searchBufferW_eq (hE _ _ _ (by rw [hcount]; exact List.length_pos_of_ne_nil hb) (by omega) he)
  unfold getW get
  by_cases h0 : d.next = 0
  · rw [if_pos h0, if_pos h0]
    by_cases hb : L.buf = []
    · have : pageCount d.wbuf = 0 := by rw [hcount, hb]; rfl
      unfold searchBufferW searchBuffer
      rw [if_pos this, if_pos this]
    · obtain ⟨⟨x, x1, x2⟩, ⟨y, y1, y2⟩⟩ := hnext h0 hb
      have m1 := minKey_le S.sortedBuf (r := x) (by rw [S.buf]; exact x1)
      have m2 := le_maxKey S.sortedBuf (r := y) (by rw [S.buf]; exact y1)
      rw [inside hb (by omega) (by omega)]
  · rw [if_neg h0, if_neg h0]
    have st := getStoredW_eq hE h8 hcap hc hN hB hbs hk S hP (by omega) hpg
    by_cases hw : pageCount d.wbuf ≠ 0
    · rw [if_pos hw, if_pos hw]
      have hb : L.buf ≠ [] := by intro h; rw [h] at hcount; exact hw hcount
      by_cases hgt : key > pageMaxKey c d.wbuf
      · rw [if_pos hgt, if_pos hgt]
      · rw [if_neg hgt, if_neg hgt]
        by_cases hge : key ≥ pageMinKey c d.wbuf
        · rw [if_pos hge, if_pos hge, inside hb hge (by omega)]
        · rw [if_neg hge, if_neg hge, st]
    · rw [if_neg hw, if_neg hw, st]

theorem getF_eq (hE : Estimates r c) (h8 : c.keySize ≤ 8) (hcap : c.maxRec ≤ 2 ^ 14) (hc : CmpOk c.cmpKey K)
    (hN : 0 < c.N) {P : Nat} (hB : Bounds c lo K P) (hbs : c.binSearch = false) {key : Nat} (hk : key < K) {d : Data}
    (S : Sim c lo K a d L) (hP : d.next ≤ P) (hpg : ∀ g ∈ L.pages, g.length ≤ c.maxRec) (hbuf : L.buf.length ≤ c.maxRec)
    (hnext : d.next = 0 → L.buf ≠ [] → (∃ x ∈ L.buf, x.1 ≤ key) ∧ ∃ y ∈ L.buf, key ≤ y.1) :
    getF r c d key = get c d key :=
  getW_eq (searchesAs_F hE) h8 hcap hc hN hB hbs hk S hP hpg hbuf hnext

end

/-! ### `getMaxError` -/

theorem maxErrLoop_ok (r : Rnd 24) {c : Cfg} {p : Page} {s : ℚ} (hs : 0 < s) :
    ∀ (n i : Nat) (m : Int), (∀ j, i ≤ j → j < i + n →
      0 ≤ r.f (r.f (subMod (keyMod c) (slotKey c p j) (pageMinKey c p)) / s) ∧
      r.f (r.f (subMod (keyMod c) (slotKey c p j) (pageMinKey c p)) / s) ≤ 2 ^ 30) → i + n ≤ 2 ^ 15 →
    ∃ e, maxErrLoop r c p s n i m = .ok e := by
  intro n
  induction n with
  | zero => intro i m _ _; exact ⟨m, rfl⟩
  | succ n ih =>
    intro i m hq hi
    unfold maxErrLoop
    rw [if_neg hs.ne']
    obtain ⟨h1, h2⟩ := hq i (le_refl _) (by omega)
    simp only
    set v := r.f (r.f (subMod (keyMod c) (slotKey c p i) (pageMinKey c p)) / s) with hv
    have hri : r.f (i : ℚ) = i := FloatR.nat r i (by omega)
    have hi15 : (i : ℚ) ≤ (2 ^ 15 : ℕ) := by exact_mod_cast (by omega : i ≤ 2 ^ 15)
    have hi0 : (0 : ℚ) ≤ i := by positivity
    have r15 := FloatR.nat r (2 ^ 15) (by norm_num)
    have r30 : r.f ((2 ^ 30 : ℕ) : ℚ) = ((2 ^ 30 : ℕ) : ℚ) := by
      have := FloatR.pow r 30 (by norm_num) (by norm_num)
      have h : ((2 ^ 30 : ℕ) : ℚ) = 2 ^ (30 : ℤ) := by norm_num
      rw [h]; exact this
    rw [hri]
    have hx : (if v ≥ (i : ℚ) then r.f (v - i) else r.f (i - v)) < ((2 ^ 31 : ℕ) : ℚ) := by
      split_ifs with hge
      · have := r.mono (v - i) ((2 ^ 30 : ℕ) : ℚ) (by linarith) (by push_cast at *; linarith)
        rw [r30] at this
        refine lt_of_le_of_lt this (by norm_num)
      · have := r.mono (i - v) ((2 ^ 15 : ℕ) : ℚ) (by linarith) (by linarith)
        rw [r15] at this
        refine lt_of_le_of_lt this (by norm_num)
    rw [toSigned_ok hx, Res.ok_bind]
    exact ih (i + 1) _ (fun j h1 h2 => hq j (by omega) (by omega)) (by omega)

/-- The maximal error of a full sorted page is defined when the slope is that of the page. -/
theorem getMaxErr_ok (r : Rnd 24) {c : Cfg} {K : Nat} {p w : Page} (hs : SortedPage c K p) (h8 : c.keySize ≤ 8)
    (hfull : pageCount p = c.maxRec) (hcap : 0 < c.maxRec) (hcnt : c.maxRec ≤ 2 ^ 14) (hw : c.keySize ≤ 4 ∨ w = p) :
    ∃ e, getMaxErr r c p w = .ok e := by
  have hsl : slopeOf r c (if c.keySize ≤ 4 then p else w) = slopeOf r c p := by
    rcases hw with h | h
    · rw [if_pos h]
    · rw [h]; split_ifs <;> rfl
  have hin : ∀ j, j < c.maxRec → pageMinKey c p ≤ slotKey c p j ∧ slotKey c p j ≤ pageMaxKey c p := by
    intro j hj
    have hm : (slotKey c p j, slotData c p j) ∈ recs c p := mem_recs.mpr ⟨j, by omega, rfl⟩
    exact ⟨minKey_le hs hm, le_maxKey hs hm⟩
  have hpos := (quotient_page r hs h8 (by omega) (hin 0 hcap).1 (hin 0 hcap).2).1
  obtain ⟨e, he⟩ := maxErrLoop_ok r (c := c) (p := p) hpos c.maxRec 0 0 (by
    intro j _ hj
    have hj' : j < c.maxRec := by omega
    obtain ⟨h1, h2⟩ := hin j hj'
    have hb := lt_of_lt_of_le (slotKey_lt c p j) (keyMod_ge h8)
    rw [subMod_le h1 hb]
    obtain ⟨h3, h4⟩ := (quotient_page r hs h8 (by omega) h1 h2).2
    exact ⟨h3, by linarith⟩) (by omega)
  unfold getMaxErr
  rw [hsl, he, Res.ok_bind]
  exact ⟨_, rfl⟩

/-- With the slope 1 of an empty write buffer the error is defined when the keys of the page are less than 2^30 apart. -/
theorem getMaxErr_long (r : Rnd 24) {c : Cfg} {p w : Page} (hk : 4 < c.keySize) (hw : pageCount w ≤ 1) (hcnt : c.maxRec ≤ 2 ^ 14)
    (hnear : ∀ j, j < c.maxRec → subMod (keyMod c) (slotKey c p j) (pageMinKey c p) ≤ 2 ^ 30) :
    ∃ e, getMaxErr r c p w = .ok e := by
  have hsl : slopeOf r c (if c.keySize ≤ 4 then p else w) = 1 := by
    rw [if_neg (by omega)]
    unfold slopeOf
    simp only
    rw [if_pos (by split_ifs <;> omega)]
  have r30 : r.f ((2 ^ 30 : ℕ) : ℚ) = ((2 ^ 30 : ℕ) : ℚ) := by
    have := FloatR.pow r 30 (by norm_num) (by norm_num)
    have h : ((2 ^ 30 : ℕ) : ℚ) = 2 ^ (30 : ℤ) := by norm_num
    rw [h]; exact this
  have bnd : ∀ x : ℚ, 0 ≤ x → x ≤ ((2 ^ 30 : ℕ) : ℚ) → 0 ≤ r.f x ∧ r.f x ≤ ((2 ^ 30 : ℕ) : ℚ) := by
    intro x h0 h1
    have a := r.mono 0 x (le_refl _) h0
    have b := r.mono x _ h0 h1
    rw [FloatR.zero] at a
    rw [r30] at b
    exact ⟨a, b⟩
  obtain ⟨e, he⟩ := maxErrLoop_ok r (c := c) (p := p) one_pos c.maxRec 0 0 (by
    intro j _ hj
    have h1 : ((subMod (keyMod c) (slotKey c p j) (pageMinKey c p) : ℕ) : ℚ) ≤ ((2 ^ 30 : ℕ) : ℚ) := by
      exact_mod_cast hnear j (by omega)
    obtain ⟨a, b⟩ := bnd _ (by positivity) h1
    rw [div_one]
    obtain ⟨a', b'⟩ := bnd _ a b
    exact ⟨a', le_trans b' (by norm_num)⟩) (by omega)
  unfold getMaxErr
  rw [hsl, he, Res.ok_bind]
  exact ⟨_, rfl⟩

/-! ### Recovery -/

section
variable {r : Rnd 24} {c : Cfg}

theorem readPage_all {d : Data} (h : Fresh d) (i : Nat) :
    Fresh (readPage d i).1 ∧ (readPage d i).1.dev = d.dev ∧ (readPage d i).1.wbuf = d.wbuf ∧
      ((readPage d i).2 = true → d.dev.file i = some (readPage d i).1.rbuf) := by
  unfold readPage
  split_ifs with hb
  · exact ⟨h, rfl, rfl, fun _ => h i hb⟩
  · cases hf : d.dev.file i with
    | none => exact ⟨h, rfl, rfl, fun h => by simp at h⟩
    | some p => exact ⟨fun b hb' => by simp at hb'; subst hb'; exact hf, rfl, rfl, fun _ => rfl⟩

theorem followF_eq {me : Page → Page → Res Int} {w : Page} {v : Dev}
    (hv : ∀ i p, v.file i = some p → pageId p % c.N = i → ∃ e, me p w = .ok e) :
    ∀ (n : Nat) (d : Data) (pos last : Nat) (more : Bool), Fresh d → d.dev = v → d.wbuf = w →
      (more = true → v.file pos = some d.rbuf) → followF me c n d pos last more = .ok (follow c n d pos last more) := by
  intro n
  induction n with
  | zero => intro d pos last more _ _ _ _; rfl
  | succ n ih =>
    intro d pos last more hF hdv hw hm
    unfold followF follow
    by_cases h1 : more = true ∧ pos < c.N
    · rw [if_pos h1, if_pos h1]
      by_cases h2 : pageId d.rbuf % c.N = pos ∧ pageId d.rbuf = (last + 1) % 2 ^ 32
      · rw [if_pos h2, if_pos h2, hw]
        obtain ⟨e, he⟩ := hv pos d.rbuf (hm h1.1) h2.1
        rw [he, Res.ok_bind]
        obtain ⟨f1, f2, f3, f4⟩ := readPage_all hF (pos + 1)
        exact ih _ _ _ _ f1 (by rw [f2, hdv]) (by rw [f3, hw]) (fun h => by rw [← hdv]; exact f4 h)
      · rw [if_neg h2, if_neg h2]
    · rw [if_neg h1, if_neg h1]

theorem probeF_eq {me : Page → Page → Res Int} {w : Page} {v : Dev}
    (hv : ∀ i p, v.file i = some p → pageId p % c.N = i → ∃ e, me p w = .ok e) :
    ∀ (n : Nat) (d : Data) (pos : Nat) (more : Bool), Fresh d → d.dev = v → d.wbuf = w →
      (more = true → v.file pos = some d.rbuf) →
      probeF me c n d pos more = .ok (probe c n d pos more) ∧ Fresh (probe c n d pos more).d ∧
        (probe c n d pos more).d.dev = v ∧ (probe c n d pos more).d.wbuf = w ∧
        ((probe c n d pos more).more = true → v.file (probe c n d pos more).pos = some (probe c n d pos more).d.rbuf) := by
  intro n
  induction n with
  | zero => intro d pos more hF hdv hw hm; exact ⟨rfl, hF, hdv, hw, hm⟩
  | succ n ih =>
    intro d pos more hF hdv hw hm
    unfold probeF probe
    by_cases h1 : more = true
    · rw [if_pos h1, if_pos h1]
      by_cases h2 : looksValid c d.rbuf pos = true
      · rw [if_pos h2, if_pos h2, hw]
        have h3 : pageId d.rbuf % c.N = pos := by
          unfold looksValid at h2
          simp only [decide_eq_true_eq] at h2
          exact h2.1
        obtain ⟨e, he⟩ := hv pos d.rbuf (hm h1) h3
        rw [he, Res.ok_bind]
        obtain ⟨f1, f2, f3, f4⟩ := readPage_all hF (pos + 1)
        exact ⟨rfl, f1, by simp only; rw [f2, hdv], by simp only; rw [f3, hw], fun h => by rw [← hdv]; exact f4 h⟩
      · rw [if_neg h2, if_neg h2]
        obtain ⟨f1, f2, f3, f4⟩ := readPage_all hF (pos + c.B)
        exact ih _ _ _ f1 (by rw [f2, hdv]) (by rw [f3, hw]) (fun h => by rw [← hdv]; exact f4 h)
    · rw [if_neg h1, if_neg h1]
      exact ⟨rfl, hF, hdv, hw, fun h => absurd h h1⟩

theorem recoverWith_eq {me : Page → Page → Res Int} {d : Data} (hF : Fresh d)
    (hv : ∀ i p, d.dev.file i = some p → pageId p % c.N = i → ∃ e, me p d.wbuf = .ok e) :
    recoverWith me c d = .ok (recoverPlain c d) := by
  obtain ⟨f1, f2, f3, f4⟩ := readPage_all hF 0
  obtain ⟨g1, g2, g3, g4, g5⟩ := probeF_eq (v := d.dev) (w := d.wbuf) hv 2 (readPage d 0).1 0 (readPage d 0).2 f1 f2 f3 f4
  unfold recoverWith recoverPlain
  simp only
  rw [g1, Res.ok_bind]
  cases (probe c 2 (readPage d 0).1 0 (readPage d 0).2).last with
  | none => rfl
  | some last =>
    simp only
    rw [followF_eq (v := d.dev) (w := d.wbuf) hv c.N _ _ last _ g2 g3 g4 g5, Res.ok_bind]

end

end EDB
