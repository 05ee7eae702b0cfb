import Verif.Proofs.IdxImage

/-! Helper lemmas: tables with an index file and power failures. -/

namespace EDB

open Spec (Log Range Op Out)

/-- What the client of a table with an index file may do.  `cache`: no page is completed while the page it overwrites is in the
read cache.  `idx`: a page of the index file is only written when every data page has a bitmap (`Aligned`; not so after most
reopenings) and when the page it overwrites is not in the read cache of the index file.  `flush`: a flush completes an index page. -/
structure AllowedX (c : Cfg) (lo K P : Nat) (d : Data) (x : Idx) (L : Log) (op : Op) : Prop where
  put : ∀ k v, op = .put k v → lo ≤ k ∧ k < K ∧ v.length = c.dataSize ∧ (∀ r ∈ L.all, r.1 < k) ∧
    (pageCount d.wbuf ≥ c.maxRec → d.buffered ≠ some (d.next % c.N))
  flush : op = .flush → pageCount d.wbuf ≠ 0 → d.buffered ≠ some (d.next % c.N) ∧ pageCount x.wbuf + 1 = c.maxIdx
  get : ∀ k, op = .get k → k < K
  scan : ∀ q, op = .scan q → KeysOk K q
  pages : d.next + 1 < P
  idx : WritesIdx c d x op → Aligned c x d.next ∧ x.buffered ≠ some (x.next % c.numIdx)

/-- Life of a table with an index file: created, used, cut off by a power failure during an operation, reopened, used again,
and so on. -/
inductive LifeX (c : Cfg) (lo K P : Nat) : Data → Idx → Log → Prop
  /-- created empty -/
  | new (rb : Page) (sm : Nat → Nat × Nat) (rb' : Page) : LifeX c lo K P (Data.fresh c rb sm) (Idx.fresh c rb') Log.empty
  /-- one client operation -/
  | op {d d' : Data} {x x' : Idx} {L : Log} {op : Op} {o : Out} (h : LifeX c lo K P d x L) (A : AllowedX c lo K P d x L op)
      (e : stepX c d x op = .ok (d', x', o)) : LifeX c lo K P d' x' (Spec.logAfter c.maxRec L [(op, some o)])
  /-- power failure during an operation, and reopening -/
  | cut {d d' d'' : Data} {x x' x'' : Idx} {L : Log} {op : Op} {o : Out} (h : LifeX c lo K P d x L) (A : AllowedX c lo K P d x L op)
      (e : stepX c d x op = .ok (d', x', o)) (k j : Nat) (hm : Moment d x d' k j) (rb : Page) (sm : Nat → Nat × Nat) (rb' : Page)
      (hs : SafeCut c d'.dev k) (hs' : SafeCut c x'.dev j) (e' : reopenX c d'.dev x'.dev k j rb sm rb' = (d'', x'', 0)) :
      LifeX c lo K P d'' x'' (cutLog (Spec.logAfter c.maxRec L [(op, some o)]) d'.dev k)

/-- The index file received its pages one after the other, each with its number, and each describes its pages of the log. -/
structure IdxFile (c : Cfg) (x : Idx) (L : Log) : Prop where
  log : ∃ ps : List Page, IdxLog c x.dev.log ps ∧ ps.length = x.next ∧
    ∀ i (hi : i < ps.length), ∀ e, e < c.maxIdx → Covers c (idxEntry c ps[i] e) (L.pages.getD (i * c.maxIdx + e) [])
  file : x.dev.file = Spec.image c.eraseFx x.dev.log

section
variable {c : Cfg} {lo K P m : Nat} {d d' : Data} {x x' : Idx} {L L' : Log}

theorem IdxFile.fresh (c : Cfg) (rb : Page) (L : Log) : IdxFile c (Idx.fresh c rb) L :=
  ⟨⟨[], IdxLog.nil, rfl, fun _ h => by cases h⟩, rfl⟩

theorem getD_prefix {α : Type} {l l' : List α} (h : l <+: l') {i : Nat} (hi : i < l.length) (a : α) : l'.getD i a = l.getD i a := by
  obtain ⟨t, rfl⟩ := h
  rw [List.getD_eq_getElem?_getD, List.getD_eq_getElem?_getD, List.getElem?_append_left hi]

theorem entry_lt {n w i e m : Nat} (h : w * m ≤ n) (hi : i < w) (he : e < m) : i * m + e < n := by
  have h1 : (i + 1) * m ≤ w * m := Nat.mul_le_mul_right _ (by omega)
  rw [Nat.add_mul] at h1
  omega

/-- The log of the table has grown, the index file has not. -/
theorem IdxFile.congr (F : IdxFile c x L) (I : IdxInv c x L) (h : L.pages <+: L'.pages) (h1 : x'.dev = x.dev) (h2 : x'.next = x.next) :
    IdxFile c x' L' := by
  obtain ⟨ps, l1, l2, l3⟩ := F.log
  refine ⟨⟨ps, by rw [h1]; exact l1, by rw [h2]; exact l2, ?_⟩, by rw [h1]; exact F.file⟩
  intro i hi e he
  have hp := I.pages
  rw [getD_prefix h (entry_lt (n := L.pages.length) (w := x.next) (by omega) (by omega) he)]
  exact l3 i hi e he

/-- A page of the index file is written. -/
theorem IdxFile.write {y : Idx} (hx : c.IdxOk) (hB : 0 < c.B) (F : IdxFile c x L) (I : IdxInv c x L) (I' : IdxInv c x' L')
    (h : L.pages <+: L'.pages) (h32 : x.next < 2 ^ 32) (y1 : y.dev = x.dev) (y2 : y.next = x.next) (y3 : y.min = x.min)
    (y4 : y.avail = x.avail) (h1 : x'.dev = (idxOut c y).dev) (h2 : x'.next = x.next + 1) (h3 : x'.min = idxMin c y) : IdxFile c x' L' := by
  obtain ⟨ps, l1, l2, l3⟩ := F.log
  have hp := I.pages
  have hsum := I.sum
  have hml := I.minle
  have htwo := hx.two
  have hid : pageId (idxPage y) = x.next := by
    unfold idxPage
    rw [pageId_wr, y2, Nat.mod_eq_of_lt h32]
  have hlog : x'.dev.log = x.dev.log ++ (if x.avail = 0 then [.erase (x.next % c.numIdx) (x.next % c.numIdx + c.B)] else []) ++
      [.write (x.next % c.numIdx) (idxPage y)] := by
    rw [h1]; unfold idxOut; simp only [y1, y2, y4]
  refine ⟨⟨ps ++ [idxPage y], ?_, by rw [List.length_append, l2, h2]; rfl, ?_⟩, ?_⟩
  · rw [hlog, ← l2]
    by_cases ha : x.avail = 0
    · rw [if_pos ha]
      exact (l1.erase (by omega)).write (by rw [hid, l2])
    · rw [if_neg ha, List.append_nil]
      exact l1.write (by rw [hid, l2])
  · intro i hi e he
    rw [List.length_append, List.length_singleton] at hi
    by_cases h' : i < ps.length
    · rw [List.getElem_append_left h', getD_prefix h (entry_lt (n := L.pages.length) (w := x.next) (by omega) (by omega) he)]
      exact l3 i h' e he
    · have : i = x.next := by omega
      subst this
      obtain ⟨p, p1, p2⟩ := I'.stored x.next (by
        rw [h3]; unfold idxMin; rw [y3, y4]; split_ifs <;> omega) (by omega)
      rw [h1] at p1
      have : p = idxPage y := by
        unfold idxOut at p1
        simp only [y2, if_true, Option.some.injEq] at p1
        exact p1.symm
      subst this
      rw [List.getElem_append_right (by omega)]
      simp only [List.getElem_singleton]
      exact p2 e he
  · rw [hlog, image_snoc, h1]
    have hf := F.file
    by_cases ha : x.avail = 0
    · rw [if_pos ha, image_snoc, ← hf]
      funext i
      unfold idxOut
      simp only [Spec.applyEv, y1, y2, y4, ha, true_and]
    · rw [if_neg ha, List.append_nil, ← hf]
      funext i
      unfold idxOut
      simp only [Spec.applyEv, y1, y2, y4, if_neg (show ¬ (x.avail = 0 ∧ _) from fun h => ha h.1)]

theorem idxAppend_dev {bm : List Byte} (e : idxAppend c x bm = .ok x') :
    x'.dev = x.dev ∧ x'.next = x.next ∧ x'.min = x.min ∧ x'.avail = x.avail := by
  unfold idxAppend at e
  simp only at e
  split_ifs at e
  cases e
  exact ⟨rfl, rfl, rfl, rfl⟩

/-- What an operation does to the index file. -/
theorem stepX_idx (hok : c.Ok K) (hx : c.IdxOk) {op : Op} {o : Out} (e : stepX c d x op = .ok (d', x', o)) :
    (x'.dev = x.dev ∧ x'.next = x.next) ∨ ∃ y : Idx, y.dev = x.dev ∧ y.next = x.next ∧ y.min = x.min ∧ y.avail = x.avail ∧
      x'.dev = (idxOut c y).dev ∧ x'.next = x.next + 1 ∧ x'.min = idxMin c y := by
  cases op with
  | put k v =>
    simp only [stepX] at e
    rw [putX_eq hok] at e
    split_ifs at e with h1 h2
    · obtain ⟨y, hy, e⟩ := Res.bind_eq_ok e
      obtain ⟨x1, h3, hy⟩ := Res.bind_eq_ok hy
      cases hy
      cases e
      unfold idxPut at h3
      rw [writeIdx_eq hok.io] at h3
      split_ifs at h3 with h4
      · obtain ⟨a1, a2, a3, a4⟩ := idxAppend_dev h3
        exact Or.inr ⟨x, rfl, rfl, rfl, rfl, a1, a2, a3⟩
      · obtain ⟨a1, a2, a3, a4⟩ := idxAppend_dev h3
        exact Or.inl ⟨a1, a2⟩
    · obtain ⟨y, hy, e⟩ := Res.bind_eq_ok e
      obtain ⟨x1, h3, hy⟩ := Res.bind_eq_ok hy
      cases hy
      cases e
      cases h3
      exact Or.inl ⟨rfl, rfl⟩
    · obtain ⟨y, hy, e⟩ := Res.bind_eq_ok e
      cases hy
      cases e
      exact Or.inl ⟨rfl, rfl⟩
  | flush =>
    simp only [stepX] at e
    rw [flushX_eq hok hx.index] at e
    split_ifs at e with h1
    · obtain ⟨y, hy, e⟩ := Res.bind_eq_ok e
      cases hy
      cases e
      exact Or.inl ⟨rfl, rfl⟩
    · obtain ⟨y, hy, e⟩ := Res.bind_eq_ok e
      obtain ⟨⟨x1, b⟩, h3, hy⟩ := Res.bind_eq_ok hy
      unfold idxFlush at h3
      obtain ⟨x2, h4, h3⟩ := Res.bind_eq_ok h3
      rw [writeIdx_eq hok.io] at h3
      cases h3
      simp only [if_true] at hy
      cases hy
      cases e
      obtain ⟨a1, a2, a3, a4⟩ := idxAppend_dev h4
      exact Or.inr ⟨x2, a1, a2, a3, a4, rfl, by show x2.next + 1 = _; rw [a2], rfl⟩
  | get k =>
    simp only [stepX] at e
    obtain ⟨⟨d1, r, out⟩, h1, e⟩ := Res.bind_eq_ok e
    cases e
    exact Or.inl ⟨rfl, rfl⟩
  | scan q =>
    simp only [stepX] at e
    obtain ⟨⟨d1, x1, rs⟩, h1, e⟩ := Res.bind_eq_ok e
    cases e
    have S := scanAll_sameIdx h1
    exact Or.inl ⟨S.dev, S.next⟩

/-- An operation of a client that sticks to the rules. -/
theorem stepX_file (hok : c.Ok K) (hx : c.IdxOk) {op : Op} {o : Out} (F : IdxFile c x L) (I : IdxInv c x L) (I' : IdxInv c x' L')
    (h : L.pages <+: L'.pages) (h32 : x.next < 2 ^ 32) (e : stepX c d x op = .ok (d', x', o)) : IdxFile c x' L' := by
  rcases stepX_idx hok hx e with ⟨h1, h2⟩ | ⟨y, y1, y2, y3, y4, h1, h2, h3⟩
  · exact F.congr I h h1 h2
  · exact F.write hx hok.B0 I I' h h32 y1 y2 y3 y4 h1 h2 h3

/-- The data file does not notice the index. -/
theorem stepX_data (hok : c.Ok K) (hx : c.IdxOk) {op : Op} {o : Out} (e : stepX c d x op = .ok (d', x', o)) :
    ∃ x'', step c d x op = .ok (d', x'', o) := by
  cases op with
  | put k v =>
    simp only [stepX] at e
    rw [putX_eq hok] at e
    simp only [step]
    rw [putD_eq hok]
    split_ifs at e ⊢ with h1 h2
    · obtain ⟨y, hy, e⟩ := Res.bind_eq_ok e
      obtain ⟨x1, h3, hy⟩ := Res.bind_eq_ok hy
      cases hy
      cases e
      exact ⟨x, rfl⟩
    · obtain ⟨y, hy, e⟩ := Res.bind_eq_ok e
      obtain ⟨x1, h3, hy⟩ := Res.bind_eq_ok hy
      cases hy
      cases e
      exact ⟨x, rfl⟩
    · obtain ⟨y, hy, e⟩ := Res.bind_eq_ok e
      cases hy
      cases e
      exact ⟨x, rfl⟩
  | flush =>
    simp only [stepX] at e
    rw [flushX_eq hok hx.index] at e
    simp only [step]
    rw [flushD_eq hok.io hok.spline]
    split_ifs at e ⊢ with h1
    · obtain ⟨y, hy, e⟩ := Res.bind_eq_ok e
      cases hy
      cases e
      exact ⟨x, rfl⟩
    · obtain ⟨y, hy, e⟩ := Res.bind_eq_ok e
      obtain ⟨⟨x1, b⟩, h3, hy⟩ := Res.bind_eq_ok hy
      unfold idxFlush at h3
      obtain ⟨x2, h4, h3⟩ := Res.bind_eq_ok h3
      rw [writeIdx_eq hok.io] at h3
      cases h3
      simp only [if_true] at hy
      cases hy
      cases e
      exact ⟨x, rfl⟩
  | get k =>
    simp only [stepX] at e
    simp only [step]
    obtain ⟨⟨d1, r, out⟩, h1, e⟩ := Res.bind_eq_ok e
    cases e
    exact ⟨x, by rw [h1]; rfl⟩
  | scan q =>
    simp only [stepX] at e
    simp only [step]
    obtain ⟨⟨d1, x1, rs⟩, h1, e⟩ := Res.bind_eq_ok e
    cases e
    exact ⟨_, by rw [h1]; rfl⟩

/-! ### Reading the index file -/

/-- The read buffer contains what the file contains. -/
def IdxFresh (x : Idx) : Prop := ∀ ph, x.buffered = some ph → x.dev.file ph = some x.rbuf

theorem readIdx_some {ph : Nat} {q : Page} (F : IdxFresh x) (h : x.dev.file ph = some q) :
    (readIdx x ph).2 = true ∧ (readIdx x ph).1.rbuf = q ∧ (readIdx x ph).1.buffered = some ph ∧ IdxFresh (readIdx x ph).1 := by
  unfold readIdx
  split_ifs with hb
  · have := F ph hb
    rw [h] at this
    exact ⟨rfl, (Option.some.inj this).symm, hb, F⟩
  · rw [h]
    refine ⟨rfl, rfl, rfl, ?_⟩
    intro p hp
    cases hp
    exact h

theorem readIdx_none {ph : Nat} (F : IdxFresh x) (h : x.dev.file ph = none) : readIdx x ph = (x, false) := by
  unfold readIdx
  split_ifs with hb
  · have := F ph hb
    rw [h] at this
    cases this
  · rw [h]

/-- Reading any page. -/
theorem readIdx_at (F : IdxFresh x) (i : Nat) :
    (readIdx x i).2 = (x.dev.file i).isSome ∧ (∀ q, x.dev.file i = some q → (readIdx x i).1.rbuf = q) ∧ IdxFresh (readIdx x i).1 := by
  cases h : x.dev.file i with
  | some q =>
    obtain ⟨h1, h2, _, h4⟩ := readIdx_some F h
    exact ⟨h1, fun q' e => by cases e; exact h2, h4⟩
  | none =>
    rw [readIdx_none F h]
    exact ⟨rfl, fun q e => (by cases e), F⟩

theorem followIdx_ok {ps : List Page} {s : Nat} (h0 : 0 < c.numIdx) (hw : 0 < ps.length) (hP : ps.length < P) (hP32 : P ≤ 2 ^ 32)
    (hid : ∀ i (hi : i < ps.length), pageId ps[i] = i) (hs : s ≤ lap c.numIdx ps.length) :
    ∀ (n : Nat) (x : Idx) (pos last : Nat), n + pos = c.numIdx → pos ≤ ps.length - lap c.numIdx ps.length → IdxFresh x →
      IdxImage c P ps s x.dev.file → (∀ q, x.dev.file pos = some q → x.rbuf = q) →
      (0 < pos → last + 1 = lap c.numIdx ps.length + pos) →
      ∃ x' wr, followIdx c n x pos last (x.dev.file pos).isSome = (x', ps.length - lap c.numIdx ps.length, ps.length - 1, wr) ∧
        ((wr = none ∧ ¬ (c.numIdx ≤ ps.length ∧ s + c.numIdx ≤ ps.length ∧ ps.length % c.numIdx ≠ 0)) ∨
          (wr = some (ps.length - c.numIdx) ∧ c.numIdx ≤ ps.length ∧ s + c.numIdx ≤ ps.length)) ∧ IdxFresh x' ∧ SameIdx x x' := by
  have hle := lap_le c.numIdx ps.length
  have hgt := lap_gt h0 hw
  have hmod := lap_mod c.numIdx ps.length
  intro n
  induction n with
  | zero =>
    intro x pos last h1 h2 F hf hr hlast
    have hp : pos = ps.length - lap c.numIdx ps.length := by omega
    have hl : last = ps.length - 1 := by have := hlast (by omega); omega
    refine ⟨x, none, by rw [← hp, hl]; rfl, Or.inl ⟨rfl, ?_⟩, F, SameIdx.refl x⟩
    rintro ⟨_, _, h⟩
    apply h
    rw [show ps.length = lap c.numIdx ps.length + c.numIdx by omega, Nat.add_mod_right, hmod]
  | succ n ih =>
    intro x pos last h1 h2 F hf hr hlast
    unfold followIdx
    by_cases hp : pos < ps.length - lap c.numIdx ps.length
    · have hpl : (lap c.numIdx ps.length + pos) % c.numIdx = pos := by
        rw [lap_place h0 (w := ps.length) (by omega) (by omega)]; omega
      have hfile := hf.intact (lap c.numIdx ps.length + pos) (by omega) (by omega) (by omega)
      rw [hpl] at hfile
      have hrb := hr _ hfile
      rw [if_pos (by rw [hfile]; exact ⟨rfl, by omega⟩), if_pos (by
        rw [hrb, hid]
        rcases Nat.eq_zero_or_pos pos with h | h
        · exact Or.inl h
        · have := hlast h
          rw [Nat.mod_eq_of_lt (by omega)]
          exact Or.inr this.symm)]
      obtain ⟨a1, a2, a3⟩ := readIdx_at F (pos + 1)
      have S := readIdx_same x (pos + 1)
      simp only
      rw [a1, ← S.dev]
      obtain ⟨x', wr, g1, g2, g3, g4⟩ := ih (readIdx x (pos + 1)).1 (pos + 1) (pageId x.rbuf) (by omega) (by omega) a3
        (by rw [S.dev]; exact hf) (by rw [S.dev]; exact a2) (by intro _; rw [hrb, hid]; omega)
      exact ⟨x', wr, g1, g2, g3, S.trans g4⟩
    · have hpe : pos = ps.length - lap c.numIdx ps.length := by omega
      have hl : last = ps.length - 1 := by have := hlast (by omega); omega
      have hpm : ps.length % c.numIdx = pos := by
        rw [show ps.length = lap c.numIdx ps.length + pos by omega]
        obtain ⟨k, hk⟩ := Nat.dvd_of_mod_eq_zero hmod
        rw [hk, Nat.mul_add_mod, Nat.mod_eq_of_lt (by omega)]
      rw [← hpe, ← hl]
      by_cases hwn : c.numIdx ≤ ps.length
      · have hlm : (ps.length - c.numIdx) % c.numIdx = pos := by
          rw [← hpm]
          conv_rhs => rw [show ps.length = ps.length - c.numIdx + c.numIdx by omega, Nat.add_mod_right]
        by_cases hsl : s ≤ ps.length - c.numIdx
        · have hfile := hf.intact (ps.length - c.numIdx) (by omega) hsl (by omega)
          rw [hlm] at hfile
          have hrb := hr _ hfile
          rw [if_pos (by rw [hfile]; exact ⟨rfl, by omega⟩), if_neg (by
            rw [hrb, hid, Nat.mod_eq_of_lt (by omega)]
            omega), if_pos (by
            rw [hrb, hid]
            unfold u32
            rw [show ((last : Int) - c.numIdx + 1) = ((ps.length - c.numIdx : Nat) : Int) by omega]
            rw [Int.emod_eq_of_lt (by omega) (by omega)]
            simp), hrb, hid]
          exact ⟨x, _, rfl, Or.inr ⟨rfl, hwn, by omega⟩, F, SameIdx.refl x⟩
        · obtain ⟨q, q1, q2⟩ := hf.marked (ps.length - c.numIdx) (by omega) (by omega)
          rw [hlm] at q1
          have hrb := hr _ q1
          rw [if_pos (by rw [q1]; exact ⟨rfl, by omega⟩), if_neg (by
            rw [hrb, Nat.mod_eq_of_lt (by omega)]
            omega), if_neg (by
            rw [hrb]
            unfold u32
            rw [show ((last : Int) - c.numIdx + 1) = ((ps.length - c.numIdx : Nat) : Int) by omega]
            rw [Int.emod_eq_of_lt (by omega) (by omega)]
            simp only [Int.toNat_natCast]
            omega)]
          exact ⟨x, _, rfl, Or.inl ⟨rfl, by omega⟩, F, SameIdx.refl x⟩
      · have hfile := hf.empty pos (by
          have : lap c.numIdx ps.length = 0 := by
            unfold lap
            rw [Nat.div_eq_of_lt (by omega), Nat.zero_mul]
          omega) (by omega)
        rw [if_neg (by rw [hfile]; simp)]
        exact ⟨x, _, rfl, Or.inl ⟨rfl, by omega⟩, F, SameIdx.refl x⟩

/-- The oldest index page a reopened table knows: everything on file if no page was erased, otherwise the pages of the latest round. -/
def oldestIdx (N s w : Nat) : Nat := if N ≤ w ∧ s + N ≤ w then w - N else lap N w

theorem oldestIdx_bounds {N s w : Nat} (h0 : 0 < N) (hs : s ≤ lap N w) :
    oldestIdx N s w ≤ w ∧ w ≤ oldestIdx N s w + N ∧ (s ≤ oldestIdx N s w) ∧ (0 < w → oldestIdx N s w < w) := by
  have h1 := lap_le N w
  have h2 : 0 < w → _ := lap_gt (w := w) h0
  unfold oldestIdx
  split_ifs <;> omega

/-- Opening an index file. -/
theorem recoverIdx_ok {ps : List Page} {s : Nat} (h0 : 0 < c.numIdx) (h32 : c.numIdx < 2 ^ 32) (hP : ps.length < P) (hP32 : P ≤ 2 ^ 32)
    (hid : ∀ i (hi : i < ps.length), pageId ps[i] = i) (hf : IdxImage c P ps s x.dev.file) (hs : s ≤ lap c.numIdx ps.length)
    (hb : x.buffered = none) (hx : x.next = 0 ∧ x.min = 0 ∧ x.avail = c.numIdx) :
    (recoverIdx c x).dev = x.dev ∧ (recoverIdx c x).wbuf = x.wbuf ∧ (recoverIdx c x).next = ps.length ∧
      (recoverIdx c x).min = oldestIdx c.numIdx s ps.length ∧
      (recoverIdx c x).next + (recoverIdx c x).avail = (recoverIdx c x).min + c.numIdx ∧ IdxFresh (recoverIdx c x) ∧
      (∀ ph, (recoverIdx c x).buffered = some ph → ph = oldestIdx c.numIdx s ps.length % c.numIdx ∧ 0 < ps.length) := by
  have F : IdxFresh x := by intro ph h; rw [hb] at h; cases h
  by_cases hz : ps.length = 0
  · -- nothing was read
    have hn : readIdx x 0 = (x, false) := readIdx_none F (hf.empty 0 (by omega) h0)
    have e : recoverIdx c x = x := by
      unfold recoverIdx
      simp only
      rw [hn]
      have : followIdx c c.numIdx x 0 0 false = (x, 0, 0, none) := by
        obtain ⟨n, hn⟩ : ∃ n, c.numIdx = n + 1 := ⟨c.numIdx - 1, by omega⟩
        rw [hn]
        unfold followIdx
        rw [if_neg (by simp)]
      rw [this]
      simp only [if_true]
    have eo : oldestIdx c.numIdx s ps.length = 0 := by
      unfold oldestIdx lap
      rw [hz, if_neg (by omega)]
      simp
    rw [e, eo, hx.1, hx.2.1, hx.2.2, hz]
    exact ⟨rfl, rfl, rfl, rfl, rfl, F, by intro ph h; rw [hb] at h; cases h⟩
  · have hw : 0 < ps.length := by omega
    obtain ⟨a1, a2, a3⟩ := readIdx_at F 0
    have S := readIdx_same x 0
    obtain ⟨x', wr, g1, g2, g3, g4⟩ := followIdx_ok h0 hw hP hP32 hid hs c.numIdx (readIdx x 0).1 0 0 (by omega) (Nat.zero_le _) a3
      (by rw [S.dev]; exact hf) (by rw [S.dev]; exact a2) (by omega)
    have G := S.trans g4
    have hle := lap_le c.numIdx ps.length
    have hgt := lap_gt h0 hw
    obtain ⟨o1, o2, o3, o4⟩ := oldestIdx_bounds h0 hs
    have o4 := o4 hw
    -- the last read
    have fin : ∀ ph, ph = oldestIdx c.numIdx s ps.length % c.numIdx → ∀ y : Idx,
        y = { (readIdx { x' with next := (ps.length - 1 + 1) % 2 ^ 32 } ph).1 with
          min := pageId (readIdx { x' with next := (ps.length - 1 + 1) % 2 ^ 32 } ph).1.rbuf
          avail := u32 (c.numIdx + pageId (readIdx { x' with next := (ps.length - 1 + 1) % 2 ^ 32 } ph).1.rbuf - (ps.length - 1 : Nat) - 1) } →
        y.dev = x.dev ∧ y.wbuf = x.wbuf ∧ y.next = ps.length ∧ y.min = oldestIdx c.numIdx s ps.length ∧
          y.next + y.avail = y.min + c.numIdx ∧ IdxFresh y ∧
          (∀ ph, y.buffered = some ph → ph = oldestIdx c.numIdx s ps.length % c.numIdx ∧ 0 < ps.length) := by
      intro ph hph' y hy
      subst hy
      have F' : IdxFresh { x' with next := (ps.length - 1 + 1) % 2 ^ 32 } := g3
      have hfile : ({ x' with next := (ps.length - 1 + 1) % 2 ^ 32 } : Idx).dev.file ph = some (ps[oldestIdx c.numIdx s ps.length]'o4) := by
        show x'.dev.file ph = _
        rw [G.dev, hph']
        exact hf.intact _ o4 o3 o2
      obtain ⟨b1, b2, b3, b4⟩ := readIdx_some F' hfile
      have R := readIdx_same { x' with next := (ps.length - 1 + 1) % 2 ^ 32 } ph
      have hmin : pageId (readIdx { x' with next := (ps.length - 1 + 1) % 2 ^ 32 } ph).1.rbuf = oldestIdx c.numIdx s ps.length := by
        rw [b2, hid]
      have hnext : (readIdx { x' with next := (ps.length - 1 + 1) % 2 ^ 32 } ph).1.next = ps.length := by
        rw [R.next]
        show (ps.length - 1 + 1) % 2 ^ 32 = _
        rw [Nat.mod_eq_of_lt (by omega)]
        omega
      refine ⟨R.dev.trans G.dev, R.wbuf.trans G.wbuf, hnext, hmin, ?_, b4, ?_⟩
      · show (readIdx { x' with next := (ps.length - 1 + 1) % 2 ^ 32 } ph).1.next +
          u32 ((c.numIdx : Int) + (pageId (readIdx { x' with next := (ps.length - 1 + 1) % 2 ^ 32 } ph).1.rbuf : Nat) - (ps.length - 1 : Nat) - 1) =
          pageId (readIdx { x' with next := (ps.length - 1 + 1) % 2 ^ 32 } ph).1.rbuf + c.numIdx
        rw [hmin, hnext]
        unfold u32
        rw [show ((c.numIdx : Int) + (oldestIdx c.numIdx s ps.length : Nat) - (ps.length - 1 : Nat) - 1) =
          ((c.numIdx + oldestIdx c.numIdx s ps.length - ps.length : Nat) : Int) by omega]
        rw [Int.emod_eq_of_lt (by omega) (by omega)]
        simp only [Int.toNat_natCast]
        omega
      · intro ph' h
        have h' : (readIdx { x' with next := (ps.length - 1 + 1) % 2 ^ 32 } ph).1.buffered = some ph' := h
        rw [b3] at h'
        cases h'
        exact ⟨hph', hw⟩
    have eq : recoverIdx c x = (fun ph : Nat => ({ (readIdx { x' with next := (ps.length - 1 + 1) % 2 ^ 32 } ph).1 with
          min := pageId (readIdx { x' with next := (ps.length - 1 + 1) % 2 ^ 32 } ph).1.rbuf
          avail := u32 (c.numIdx + pageId (readIdx { x' with next := (ps.length - 1 + 1) % 2 ^ 32 } ph).1.rbuf - (ps.length - 1 : Nat) - 1) } : Idx))
        (match wr with | some l => l % c.numIdx | none => 0) := by
      rw [S.dev, ← a1] at g1
      unfold recoverIdx
      simp only [g1]
      rw [if_neg (by omega)]
      cases wr
      · rfl
      · rfl
    rcases g2 with ⟨h1, h2⟩ | ⟨h1, h2, h3⟩
    · subst h1
      refine fin 0 ?_ _ eq
      unfold oldestIdx
      split_ifs with h3
      · have h4 : ps.length % c.numIdx = 0 := by
          by_contra h
          exact h2 ⟨h3.1, h3.2, h⟩
        rw [← lap_round h0 hw h4, lap_mod]
      · rw [lap_mod]
    · subst h1
      refine fin ((ps.length - c.numIdx) % c.numIdx) ?_ _ eq
      unfold oldestIdx
      rw [if_pos ⟨h2, h3⟩]

/-! ### One operation -/

theorem AllowedX.safe {op : Op} (A : AllowedX c lo K P d x L op) : SafeOp c d x op := by
  have key : WritesIdx c d x op → x.buffered ≠ some (x.next % c.numIdx) := fun h => (A.idx h).2
  cases op with
  | put k v => exact fun h => ⟨(A.put k v rfl).2.2.2.2 h, fun h' => key ⟨h, h'⟩⟩
  | flush => exact fun h => ⟨(A.flush rfl h).1, key h, (A.flush rfl h).2⟩
  | get k => trivial
  | scan q => trivial

theorem TableX.op {op : Op} (hok : c.Ok K) (hx : c.IdxOk) (hs : m = 0 ∨ c.maxErr ≤ 1) (hB : Bounds c lo K P)
    (h255 : c.maxRec ≤ 255) (T : TableX c lo K m d x L) (A : AllowedX c lo K P d x L op) :
    ∃ d' x' o, stepX c d x op = .ok (d', x', o) ∧ TableX c lo K m d' x' (Spec.logAfter c.maxRec L [(op, some o)]) ∧
      Spec.Run (fun _ => True) (fun l => l.live d.min) c.maxRec c.cmpData L [(op, some o)] := by
  have hP := A.pages
  have hal := fun h => (A.idx h).1
  have hsafe := A.safe
  cases op with
  | put k v =>
    obtain ⟨h1, h2, h3, h4, _⟩ := A.put k v rfl
    obtain ⟨d', x', ⟨e, T', _⟩ | ⟨e, T', _, _, hr⟩⟩ := T.put hok hx hs hB (by omega) h3 h1 h2 h4 hsafe hal
    · exact ⟨d', x', _, e, T', fun _ => Or.inl ⟨rfl, trivial⟩⟩
    · exact ⟨d', x', _, e, by simpa [Spec.logAfter] using T', fun _ => Or.inr ⟨rfl, hr, trivial⟩⟩
  | flush =>
    obtain ⟨d', x', e, T', _⟩ := T.flush hok hx hs hB (by omega) hsafe hal
    exact ⟨d', x', _, e, T', fun _ => ⟨rfl, trivial⟩⟩
  | get k =>
    obtain ⟨d', e, T', _⟩ := T.get hok hB (by omega) h255 (A.get k rfl)
    exact ⟨d', x, _, e, T', rfl, trivial⟩
  | scan q =>
    obtain ⟨d', x', e, T', _⟩ := T.scan hok hx hB (by omega) (A.scan q rfl)
    exact ⟨d', x', _, e, T', rfl, trivial⟩

theorem stepX_log (hok : c.Ok K) (hx : c.IdxOk) {op : Op} {o : Out} (e : stepX c d x op = .ok (d', x', o)) :
    ∃ es, d'.dev.log = d.dev.log ++ es := by
  obtain ⟨x'', e⟩ := stepX_data hok hx e
  cases op with
  | put k v =>
    have E := orderCheck_same (c := c) d k
    simp only [EDB.step] at e
    rw [putD_eq hok] at e
    split_ifs at e
    · simp only [Res.ok_bind, Res.ok.injEq, Prod.mk.injEq] at e
      obtain ⟨rfl, _, rfl⟩ := e
      unfold accepted
      simp only
      rw [E.wbuf]
      split_ifs
      · refine ⟨(if (orderCheck c d k).1.avail = 0 then [Ev.erase ((orderCheck c d k).1.next % c.N) ((orderCheck c d k).1.next % c.N + c.B)] else []) ++
          [Ev.write ((orderCheck c d k).1.next % c.N) (outPage (orderCheck c d k).1)], ?_⟩
        show (EDB.sealed c (orderCheck c d k).1).dev.log = _
        rw [show (EDB.sealed c (orderCheck c d k).1).dev.log = (orderCheck c d k).1.dev.log ++
          (if (orderCheck c d k).1.avail = 0 then [Ev.erase ((orderCheck c d k).1.next % c.N) ((orderCheck c d k).1.next % c.N + c.B)] else []) ++
          [Ev.write ((orderCheck c d k).1.next % c.N) (outPage (orderCheck c d k).1)] from rfl, E.dev, List.append_assoc]
      · exact ⟨[], by rw [List.append_nil]; exact congrArg Dev.log E.dev⟩
    · simp only [Res.ok_bind, Res.ok.injEq, Prod.mk.injEq] at e
      obtain ⟨rfl, _, rfl⟩ := e
      exact ⟨[], by rw [List.append_nil]; exact congrArg Dev.log E.dev⟩
  | flush =>
    simp only [EDB.step] at e
    rw [flushD_eq hok.io hok.spline] at e
    split_ifs at e with hf
    · simp only [Res.ok_bind, Res.ok.injEq, Prod.mk.injEq] at e
      obtain ⟨rfl, _, rfl⟩ := e
      exact ⟨[], by rw [List.append_nil]⟩
    · simp only [Res.ok_bind, Res.ok.injEq, Prod.mk.injEq] at e
      obtain ⟨rfl, _, rfl⟩ := e
      refine ⟨(if d.avail = 0 then [Ev.erase (d.next % c.N) (d.next % c.N + c.B)] else []) ++ [Ev.write (d.next % c.N) (outPage d)], ?_⟩
      rw [show (EDB.sealed c d).dev.log = d.dev.log ++
          (if d.avail = 0 then [Ev.erase (d.next % c.N) (d.next % c.N + c.B)] else []) ++
          [Ev.write (d.next % c.N) (outPage d)] from rfl, List.append_assoc]
  | get k =>
    simp only [EDB.step] at e
    obtain ⟨⟨d1, r, out⟩, h1, e⟩ := Res.bind_eq_ok e
    cases e
    exact ⟨[], by rw [List.append_nil]; exact congrArg Dev.log (get_same h1).dev⟩
  | scan q =>
    simp only [EDB.step] at e
    obtain ⟨⟨d1, x1, rs⟩, h1, e⟩ := Res.bind_eq_ok e
    cases e
    exact ⟨[], by rw [List.append_nil]; exact congrArg Dev.log (scanAll_same h1).dev⟩

theorem logAfter_one_pages (cap : Nat) (op : Op) (o : Out) : L.pages.length ≤ (Spec.logAfter cap L [(op, some o)]).pages.length ∧
    (Spec.logAfter cap L [(op, some o)]).pages.length ≤ L.pages.length + 1 := by
  have h1 := fun r => Log_put_pages (L := L) cap r
  have h2 := Log_flush_pages (L := L)
  have h3 : ∀ r, L.pages.length ≤ (L.put cap r).pages.length := by
    intro r; unfold Log.put; split_ifs <;> simp
  have h4 : L.pages.length ≤ L.flush.pages.length := by
    unfold Log.flush; split_ifs <;> simp
  unfold Spec.logAfter
  split <;> simp_all [Spec.logAfter]

theorem logAfter_one_prefix (cap : Nat) (op : Op) (o : Out) : L.pages <+: (Spec.logAfter cap L [(op, some o)]).pages := by
  have h3 : ∀ r, L.pages <+: (L.put cap r).pages := by
    intro r; unfold Log.put; split_ifs <;> simp
  have h4 : L.pages <+: L.flush.pages := by
    unfold Log.flush; split_ifs <;> simp
  unfold Spec.logAfter
  split <;> simp_all [Spec.logAfter]

/-! ### The reopened index -/

/-- The index found after a power failure describes pages that are on the device. -/
theorem IdxFile.reopen (hx : c.IdxOk) (hB : 0 < c.B) (h32 : c.numIdx < 2 ^ 32) (hP32 : P ≤ 2 ^ 32) (hE : EraserX c P) (F : IdxFile c x L)
    {n j : Nat} (hj : (Spec.writes (x.dev.log.take j)).length * c.maxIdx ≤ n) (hn : n ≤ L.pages.length)
    (hP : (Spec.writes (x.dev.log.take j)).length < P) (hs : SafeCut c x.dev j) (rb : Page) (next : Nat) :
    IdxInv c (recoverIdx c (Idx.opening c (cutDev c x.dev j) rb next)) ⟨L.pages.take n, []⟩ ∧
      IdxFile c (recoverIdx c (Idx.opening c (cutDev c x.dev j) rb next)) ⟨L.pages.take n, []⟩ ∧
      (recoverIdx c (Idx.opening c (cutDev c x.dev j) rb next)).next = (Spec.writes (x.dev.log.take j)).length ∧
      pageCount (recoverIdx c (Idx.opening c (cutDev c x.dev j) rb next)).wbuf = 0 ∧
      (recoverIdx c (Idx.opening c (cutDev c x.dev j) rb next)).dev = cutDev c x.dev j ∧
      lap c.numIdx (Spec.writes (x.dev.log.take j)).length ≥ (recoverIdx c (Idx.opening c (cutDev c x.dev j) rb next)).min ∧
      ((∀ q, c.eraseFx (some q) = some q) → (recoverIdx c (Idx.opening c (cutDev c x.dev j) rb next)).min =
        (Spec.writes (x.dev.log.take j)).length - c.numIdx) ∧
      ∀ i, (recoverIdx c (Idx.opening c (cutDev c x.dev j) rb next)).min ≤ i → i < (Spec.writes (x.dev.log.take j)).length →
        ∃ p, Spec.image c.eraseFx (x.dev.log.take j) (i % c.numIdx) = some p ∧ pageId p = i := by
  have h0 := hx.num0 hB
  have htwo := hx.two
  obtain ⟨ps, l1, l2, l3⟩ := F.log
  obtain ⟨w, hw, l4⟩ := l1.take j
  have hlen : (Spec.writes (x.dev.log.take j)).length = w := by
    have := congrArg List.length l4.pages
    rw [wrote_length, List.length_take] at this
    omega
  rw [hlen] at hj hP ⊢
  have hlw : (ps.take w).length = w := by rw [List.length_take]; omega
  obtain ⟨s, I, hI, hid'⟩ : ∃ s, IdxImage c P (ps.take w) s (Spec.image c.eraseFx (x.dev.log.take j)) ∧ s ≤ lap c.numIdx (ps.take w).length ∧
      ((∀ q, c.eraseFx (some q) = some q) → s + c.numIdx ≤ w ∨ w ≤ c.numIdx) := by
    by_cases hsame : ∀ q, c.eraseFx (some q) = some q
    · obtain ⟨t, -, -⟩ := l4.image h0 (by omega) hE
      refine ⟨0, ?_, Nat.zero_le _, fun _ => by omega⟩
      clear hlw hlen hs hP hj hw
      generalize x.dev.log.take j = es at l4
      generalize ps.take w = qs at l4
      induction l4 with
      | nil => exact ⟨le_refl _, by simp, by simp, fun _ _ _ => rfl⟩
      | write h _ ih => rw [image_snoc]; exact ih.write h0 _
      | erase h hn ih => rw [image_snoc]; exact ih.eraseSame hsame hn _ _
    · obtain ⟨s, I, h⟩ := l4.image h0 (by omega) hE
      exact ⟨s, I, h hs, fun h => absurd h hsame⟩
  obtain ⟨r1, r2, r3, r4, r5, r6, r7⟩ := recoverIdx_ok (c := c) (x := Idx.opening c (cutDev c x.dev j) rb next) (ps := ps.take w)
    (s := s) (P := P) h0 h32 (by omega) hP32 l4.ids I hI rfl ⟨rfl, rfl, rfl⟩
  obtain ⟨o1, o2, o3, o4⟩ := oldestIdx_bounds h0 hI
  have hc : pageCount (recoverIdx c (Idx.opening c (cutDev c x.dev j) rb next)).wbuf = 0 := by
    rw [r2, ← pageCount_initPage c]
    unfold Idx.opening pageCount
    simp only
    rw [rd_wr_disj _ _ _ _ _ (by omega)]
  generalize hxx : recoverIdx c (Idx.opening c (cutDev c x.dev j) rb next) = y at *
  rw [hlw] at r3 r4 r7 o1 o2 o3 o4 hI
  have hlen' : (L.pages.take n).length = n := by rw [List.length_take]; omega
  have hcov : ∀ i (hi : i < (ps.take w).length), ∀ e, e < c.maxIdx →
      Covers c (idxEntry c (ps.take w)[i] e) ((L.pages.take n).getD (i * c.maxIdx + e) []) := by
    intro i hi e he
    have := l3 i (by omega) e he
    rw [List.getElem_take, List.getD_eq_getElem?_getD, List.getElem?_take, if_pos (entry_lt hj (by omega) he), ← List.getD_eq_getElem?_getD]
    exact this
  refine ⟨⟨by omega, ?_, ?_, ?_, ?_, ?_, ?_, ?_⟩, ⟨⟨ps.take w, ?_, by omega, hcov⟩, ?_⟩, r3, hc, r1, ?_, ?_, ?_⟩
  · rw [hc, r3, hlen']; omega
  · intro i hi; omega
  · intro q hq1 hq2
    rw [r4] at hq1
    rw [r3] at hq2
    exact ⟨(ps.take w)[q]'(by omega), by rw [r1]; exact I.intact q (by omega) (by omega) (by omega), hcov q (by omega)⟩
  · omega
  · omega
  · intro ph h
    obtain ⟨h1, h2⟩ := r7 ph h
    have := Nat.mod_le (oldestIdx c.numIdx s w) c.numIdx
    have := Nat.mod_lt (oldestIdx c.numIdx s w) h0
    omega
  · intro ph h q _ _ _
    exact r6 ph h
  · rw [r1]; exact l4
  · rw [r1]; rfl
  · rw [r4]
    unfold oldestIdx
    split_ifs with h
    · have := lap_gt (N := c.numIdx) (w := w) h0 (by omega)
      omega
    · exact le_refl _
  · intro h
    rw [r4]
    unfold oldestIdx
    rcases hid' h with h1 | h1
    · rw [if_pos ⟨by omega, h1⟩]
    · split_ifs with h2
      · rfl
      · have : lap c.numIdx w = 0 := by
          unfold lap
          rw [Nat.div_eq_of_lt (by omega), Nat.zero_mul]
        omega
  · intro i hi1 hi2
    rw [r4] at hi1
    exact ⟨_, I.intact i (by omega) (by omega) (by omega), l4.ids i (by omega)⟩

/-! ### All lives -/

theorem stepX_idx_log (hok : c.Ok K) (hx : c.IdxOk) {op : Op} {o : Out} (e : stepX c d x op = .ok (d', x', o)) :
    ∃ es, x'.dev.log = x.dev.log ++ es := by
  rcases stepX_idx hok hx e with ⟨h1, _⟩ | ⟨y, y1, _, _, _, h1, _, _⟩
  · exact ⟨[], by rw [h1, List.append_nil]⟩
  · rw [h1]
    unfold idxOut
    simp only [y1, List.append_assoc]
    exact ⟨_, rfl⟩

/-- Everything that ever happens to a table with an index file. -/
theorem LifeX.ok (hok : c.Ok K) (hx : c.IdxOk) (h32 : c.numIdx < 2 ^ 32) (hB : Bounds c lo K P) (hP32 : P ≤ 2 ^ 32)
    (h127 : c.maxRec ≤ 127) (hN32 : c.N < 2 ^ 32) (hE : Eraser c P) (hEX : EraserX c P) (hs : c.maxErr ≤ 1 ∨ P ≤ c.N) (hP0 : 0 < P)
    (h : LifeX c lo K P d x L) :
    Journal c d L ∧ d.next < P ∧ IdxFile c x L ∧ ∃ m, (m = 0 ∨ c.maxErr ≤ 1) ∧ c.B ∣ m ∧
      m ≤ Spec.dropped c.N c.B L.pages.length + c.B ∧ (L.pages.length ≤ c.N → m = 0) ∧ TableX c lo K m d x L := by
  have hop : ∀ {d d' : Data} {x x' : Idx} {L : Log} {op : Op} {o : Out}, (Journal c d L ∧ d.next < P ∧ IdxFile c x L ∧
      ∃ m, (m = 0 ∨ c.maxErr ≤ 1) ∧ c.B ∣ m ∧ m ≤ Spec.dropped c.N c.B L.pages.length + c.B ∧ (L.pages.length ≤ c.N → m = 0) ∧
        TableX c lo K m d x L) → AllowedX c lo K P d x L op → stepX c d x op = .ok (d', x', o) →
      (Journal c d' (Spec.logAfter c.maxRec L [(op, some o)]) ∧ d'.next < P ∧ IdxFile c x' (Spec.logAfter c.maxRec L [(op, some o)]) ∧
      ∃ m, (m = 0 ∨ c.maxErr ≤ 1) ∧ c.B ∣ m ∧
        m ≤ Spec.dropped c.N c.B (Spec.logAfter c.maxRec L [(op, some o)]).pages.length + c.B ∧
        ((Spec.logAfter c.maxRec L [(op, some o)]).pages.length ≤ c.N → m = 0) ∧
        TableX c lo K m d' x' (Spec.logAfter c.maxRec L [(op, some o)])) := by
    intro d d' x x' L op o ⟨J, hlt, F, m, hm, hd, hm1, hm2, T⟩ A e
    obtain ⟨d1, x1, o1, e1, T1, _⟩ := T.op hok hx hm hB (by omega) A
    rw [e] at e1
    cases e1
    obtain ⟨x'', e''⟩ := stepX_data hok hx e
    have hn := T1.table.sim.next
    have hn0 := T.table.sim.next
    obtain ⟨p1, p2⟩ := logAfter_one_pages (L := L) c.maxRec op o
    have hP := A.pages
    have hxn : x.next ≤ d.next := by
      have h1 := T.idx.pages
      have h2 := Nat.le_mul_of_pos_right x.next hx.cap
      omega
    have hmono := dropped_mono (N := c.N) (B := c.B) p1
    exact ⟨J.step hok T.table.clr (by omega) e'', by omega, stepX_file hok hx F T.idx T1.idx (logAfter_one_prefix _ _ _) (by omega) e, m, hm, hd,
      by omega, fun h => hm2 (by omega), T1⟩
  induction h with
  | new rb sm rb' =>
    exact ⟨Journal.fresh rb sm, hP0, IdxFile.fresh c rb' _, 0, Or.inl rfl, dvd_zero _, Nat.zero_le _, fun _ => rfl, fresh_tableX hok rb rb' sm⟩
  | op h A e ih => exact hop ih A e
  | @cut d d' d'' x x' x'' L op o h A e k j hm rb sm rb' hz hz' e' ih =>
    obtain ⟨J, hlt, F, m, hm', hd, hm1, hm2, T⟩ := hop ih A e
    obtain ⟨J0, hlt0, F0, m0, _, _, _, _, T0⟩ := ih
    have hn : d'.next = _ := T.table.sim.next
    have hn0 : d.next = _ := T0.table.sim.next
    obtain ⟨d1, n, g1, g2, g3, g4, g5, g6, g7, g8, g9, g10⟩ := reopen_ok hok hB hP32 h127 hN32 hE J T.table.sim.sorted T.table.sim.bound
      T.table.sim.full T.table.cap (by omega) k hz rb sm
    have hs' : Spec.recovered c.N c.B n = 0 ∨ c.maxErr ≤ 1 := by
      rcases hs with h | h
      · exact Or.inr h
      · exact Or.inl (recovered_small (by omega))
    obtain ⟨es, hes⟩ := stepX_log hok hx e
    have hcut : cutLog (Spec.logAfter c.maxRec L [(op, some o)]) d'.dev k =
        ⟨(Spec.logAfter c.maxRec L [(op, some o)]).pages.take n, []⟩ := by unfold cutLog; rw [← g2]
    have hnn : d.next ≤ n := by
      have h1 := J0.count
      rw [wrote_length] at h1
      rw [g2, hes, List.take_append, List.take_of_length_le hm.1, writes_append, List.length_append]
      omega
    have hj : (Spec.writes (x'.dev.log.take j)).length * c.maxIdx ≤ n := by
      obtain ⟨ps, l1, l2, _⟩ := F.log
      obtain ⟨w, hw, l4⟩ := l1.take j
      have hlen : (Spec.writes (x'.dev.log.take j)).length = w := by
        have := congrArg List.length l4.pages
        rw [wrote_length, List.length_take] at this
        omega
      rcases hm.2 with h | ⟨h, _⟩
      · obtain ⟨es', he'⟩ := stepX_idx_log hok hx e
        have h2 := T0.idx.pages
        obtain ⟨qs, k1, k2, _⟩ := F0.log
        have h3 : (Spec.writes (x'.dev.log.take j)).length = x.next := by
          rw [he', h, List.take_left, ← k2, ← wrote_length, k1.pages]
        rw [h3]
        omega
      · have h1 := J.count
        rw [wrote_length] at h1
        have h2 := T.idx.pages
        have h3 : w * c.maxIdx ≤ x'.next * c.maxIdx := Nat.mul_le_mul_right _ (by omega)
        rw [List.take_of_length_le h] at g2
        rw [hlen]
        omega
    have hjP : (Spec.writes (x'.dev.log.take j)).length < P := by
      have := Nat.le_mul_of_pos_right (Spec.writes (x'.dev.log.take j)).length hx.cap
      omega
    have hfin := F.reopen hx hok.B0 h32 hP32 hEX hj g3 hjP hz' rb' d1.next
    have e1 : reopenX c d'.dev x'.dev k j rb sm rb' =
        (d1, recoverIdx c (Idx.opening c (cutDev c x'.dev j) rb' d1.next), 0) := by
      unfold reopenX openX
      unfold reopen at g1
      simp only [g1]
      rfl
    rw [e'] at e1
    cases e1
    have hlen : (cutLog (Spec.logAfter c.maxRec L [(op, some o)]) d'.dev k).pages.length = n := by
      rw [hcut]; simp only [List.length_take]; omega
    refine ⟨g4, by omega, hcut ▸ hfin.2.1, _, hs', recovered_dvd, ?_, ?_, g10 hs', ?_, ?_⟩
    · rw [hlen]
      unfold Spec.recovered
      split_ifs <;> omega
    · rw [hlen]; exact recovered_small
    · rw [hcut]; exact hfin.1
    · rw [hcut, g8]
      exact Covers.nil c

/-- Reopening always works. -/
theorem reopenX_ok (hok : c.Ok K) (hx : c.IdxOk) (h32 : c.numIdx < 2 ^ 32) (hB : Bounds c lo K P) (hP32 : P ≤ 2 ^ 32)
    (h127 : c.maxRec ≤ 127) (hN32 : c.N < 2 ^ 32) (hE : Eraser c P) (hEX : EraserX c P) (hs : c.maxErr ≤ 1 ∨ P ≤ c.N) (hP0 : 0 < P)
    (h : LifeX c lo K P d x L) (k : Nat) (hk : SafeCut c d.dev k) (w : Dev) (j : Nat) (rb : Page) (sm : Nat → Nat × Nat) (rb' : Page) :
    ∃ d' x', reopenX c d.dev w k j rb sm rb' = (d', x', 0) := by
  obtain ⟨J, hlt, _, _, _, _, _, _, T⟩ := h.ok hok hx h32 hB hP32 h127 hN32 hE hEX hs hP0
  have hn := T.table.sim.next
  obtain ⟨d1, n, g1, _⟩ := reopen_ok hok hB hP32 h127 hN32 hE J T.table.sim.sorted T.table.sim.bound
    T.table.sim.full T.table.cap (by omega) k hk rb sm
  refine ⟨d1, recoverIdx c (Idx.opening c (cutDev c w j) rb' d1.next), ?_⟩
  unfold reopenX openX
  unfold reopen at g1
  simp only [g1]
  rfl

end

end EDB
