import Verif.Proofs.Keep
import Verif.Model.Recover

/-! Helper lemmas: opening an existing data file. -/

namespace EDB

open Spec (Log)

/-! ### Page reads during recovery -/

/-- The read cache holds what is stored. -/
def Fresh (d : Data) : Prop := ∀ ph, d.buffered = some ph → d.dev.file ph = some d.rbuf

theorem readPage_some {d : Data} {ph : Nat} {q : Page} (F : Fresh d) (h : d.dev.file ph = some q) :
    (readPage d ph).2 = true ∧ (readPage d ph).1.rbuf = q ∧ (readPage d ph).1.buffered = some ph ∧
      Fresh (readPage d ph).1 := by
  unfold readPage
  by_cases hb : d.buffered = some ph
  · rw [if_pos hb]
    have := F ph hb
    rw [h] at this
    cases this
    exact ⟨rfl, rfl, hb, F⟩
  · rw [if_neg hb, h]
    refine ⟨rfl, rfl, rfl, ?_⟩
    intro ph' h'
    simp only [Option.some.injEq] at h'
    rw [← h']
    exact h

theorem readPage_none {d : Data} {ph : Nat} (F : Fresh d) (h : d.dev.file ph = none) :
    readPage d ph = (d, false) := by
  unfold readPage
  by_cases hb : d.buffered = some ph
  · have := F ph hb
    rw [h] at this
    cases this
  · rw [if_neg hb, h]

theorem readPage_fresh {d : Data} {ph : Nat} (F : Fresh d) : Fresh (readPage d ph).1 := by
  cases h : d.dev.file ph with
  | none => rw [readPage_none F h]; exact F
  | some q => exact (readPage_some F h).2.2.2

theorem readPage_file (d : Data) (ph : Nat) : (readPage d ph).1.dev.file = d.dev.file := by
  rw [(readPage_same d ph).dev]

/-! ### The image a crash leaves -/

/-- `file` holds the newest of the pages `ps` the way `writePage` stores them, on a device with initial content `init`.
`er`: the block of the next page has already been erased. -/
structure Image (c : Cfg) (P : Nat) (init : Nat → Option Page) (ps : List Page) (er : Bool) (file : Nat → Option Page) : Prop where
  ids : ∀ l (h : l < ps.length), pageId ps[l] = l
  cnt : ∀ p ∈ ps, 0 < pageCount p ∧ pageCount p ≤ c.maxRec
  live : ∀ l (h : l < ps.length), Spec.dropped c.N c.B ps.length + (if er then c.B else 0) ≤ l →
    file (l % c.N) = some ps[l]
  old : ∀ l, l < ps.length → ps.length ≤ l + c.N →
    ∃ q, file (l % c.N) = some q ∧ (pageId q = l ∨ P ≤ pageId q)
  empty : ps.length < c.N → ∀ ph, ps.length ≤ ph → file ph = init ph
  out : ∀ ph, c.N ≤ ph → file ph = none
  mid : er = true → c.N ≤ ps.length ∧ ps.length % c.B = 0

/-- A device on which a table may be created: either none of its pages can be read, or all of them can, and none looks like
a page of a table stored in its place. -/
structure Vacant (c : Cfg) (init : Nat → Option Page) : Prop where
  out : ∀ ph, c.N ≤ ph → init ph = none
  pages : (∀ ph, init ph = none) ∨ ∀ ph, ph < c.N → ∃ q, init ph = some q ∧ looksValid c q ph = false ∧
    (0 < ph → pageId q ≠ ph ∧ (c.B ∣ ph → pageId q % c.N ≠ ph))

theorem Vacant.none (c : Cfg) : Vacant c (fun _ => none) := ⟨fun _ _ => rfl, Or.inl fun _ => rfl⟩

theorem dropped_le {N B n k : Nat} (hB : 0 < B) (h1 : n ≤ B * k + N) : Spec.dropped N B n ≤ B * k := by
  unfold Spec.dropped
  split_ifs with h
  · exact Nat.zero_le _
  · apply Nat.mul_le_mul_left
    rw [Nat.div_le_iff_le_mul hB, Nat.mul_comm]
    omega

theorem dropped_of_dvd {N B n : Nat} (hB : 0 < B) (hd : B ∣ N) (h1 : N ≤ n) (h2 : n % B = 0) :
    Spec.dropped N B n = n - N := by
  unfold Spec.dropped
  split_ifs with h
  · omega
  · obtain ⟨k, hk⟩ := (Nat.dvd_sub (Nat.dvd_of_mod_eq_zero h2) hd)
    rw [hk, Nat.add_sub_assoc (by omega), Nat.mul_add_div hB, Nat.div_eq_of_lt (by omega), Nat.add_zero]

theorem dropped_of_not_dvd {N B n : Nat} (hB : 0 < B) (hd : B ∣ N) (h1 : N ≤ n) (h2 : n % B ≠ 0) :
    Spec.dropped N B n = n - N + (B - n % B) := by
  have hmod : n % B < B := Nat.mod_lt _ hB
  have e : (n - N) % B = n % B := by
    obtain ⟨k, rfl⟩ := hd
    obtain ⟨t, rfl⟩ := Nat.exists_eq_add_of_le h1
    rw [Nat.add_sub_cancel_left, Nat.mul_add_mod]
  have hne : n ≠ N := by
    rintro rfl
    exact h2 (Nat.mod_eq_zero_of_dvd hd)
  unfold Spec.dropped
  rw [if_neg (by omega)]
  have d1 := Nat.div_add_mod (n - N) B
  rw [e] at d1
  generalize (n - N) / B = q at d1
  have e2 : n - N + B - 1 = B * (q + 1) + (n % B - 1) := by
    rw [Nat.mul_add]; omega
  rw [e2, Nat.mul_add_div hB, Nat.div_eq_of_lt (show n % B - 1 < B by omega), Nat.add_zero, Nat.mul_add]
  omega

section
variable {c : Cfg} {K P : Nat} {init : Nat → Option Page} {ps : List Page} {er : Bool}

/-- The pages from physical page 0 on hold consecutively numbered pages. -/
theorem Image.lead {file : Nat → Option Page} (hB : 0 < c.B) (hd : c.B ∣ c.N)
    (I : Image c P init ps er file)
    (hz : er = true → ps.length % c.N = 0 → ∀ l (h : l < ps.length), ps.length ≤ l + c.N → file (l % c.N) = some ps[l])
    {b top : Nat} (hb : b % c.N = 0) (hn : ps.length = b + top) (ht0 : 0 < top) (ht : top ≤ c.N) {ph : Nat} (hph : ph < top) :
    file ph = some (ps[b + ph]'(by omega)) := by
  have hmod : (b + ph) % c.N = ph := by
    obtain ⟨k, hk⟩ := Nat.dvd_of_mod_eq_zero hb
    rw [hk, Nat.mul_add_mod, Nat.mod_eq_of_lt (by omega)]
  have hbB : c.B ∣ b := dvd_trans hd (Nat.dvd_of_mod_eq_zero hb)
  obtain ⟨k, hk⟩ := hbB
  have hd1 : Spec.dropped c.N c.B ps.length ≤ b := by rw [hk]; exact dropped_le hB (by omega)
  by_cases he : er = true
  · obtain ⟨m1, m2⟩ := I.mid he
    by_cases hz0 : ps.length % c.N = 0
    · have := hz he hz0 (b + ph) (by omega) (by
        have : top = c.N := by
          have e : ps.length % c.N = top % c.N := by
            obtain ⟨k, hk⟩ := Nat.dvd_of_mod_eq_zero hb
            rw [hn, hk, Nat.mul_add_mod]
          rcases Nat.lt_or_ge top c.N with h | h
          · rw [Nat.mod_eq_of_lt h] at e; omega
          · omega
        omega)
      rw [hmod] at this
      exact this
    · have hdr := dropped_of_dvd hB hd m1 m2
      have htN : top ≠ c.N := by
        intro h
        apply hz0
        rw [hn, h, Nat.add_mod_right]; exact hb
      have htB : top % c.B = 0 := by
        rw [hn, hk, Nat.mul_add_mod] at m2; exact m2
      have : top + c.B ≤ c.N := by
        obtain ⟨i, hi⟩ := Nat.dvd_of_mod_eq_zero htB
        obtain ⟨j, hj⟩ := hd
        rw [hi, hj] at ht htN ⊢
        have : i < j := by
          rcases Nat.lt_or_ge i j with h | h
          · exact h
          · have := Nat.mul_le_mul_left c.B h
            omega
        have := Nat.mul_le_mul_left c.B this
        rw [Nat.mul_succ] at this
        exact this
      have := I.live (b + ph) (by omega) (by rw [if_pos he]; omega)
      rw [hmod] at this
      exact this
  · have := I.live (b + ph) (by omega) (by rw [if_neg he]; omega)
    rw [hmod] at this
    exact this

/-! ### The scan for the newest page -/

theorem follow_ok {file : Nat → Option Page} {b top p0 : Nat} (hlen : ps.length = b + top) (htN : top ≤ c.N)
    (hb : b % c.N = 0) (h32 : ps.length < 2 ^ 32) (ids : ∀ l (h : l < ps.length), pageId ps[l] = l)
    (lead : ∀ ph (h : ph < top), p0 ≤ ph → file ph = some (ps[b + ph]'(by omega)))
    (stop : top < c.N → ∀ q, file top = some q → pageId q ≠ b + top) :
    ∀ (n : Nat) (d : Data) (pos : Nat), 0 < pos → p0 ≤ pos → pos ≤ top → top - pos + 1 ≤ n → d.dev.file = file → Fresh d →
      (∀ q, file pos = some q → d.rbuf = q) →
      ∃ d', follow c n d pos (b + pos - 1) (file pos).isSome = (d', top, b + top - 1, (file top).isSome) ∧
        SameButCache d d' ∧ Fresh d' := by
  intro n
  induction n with
  | zero => intro d pos _ _ _ h; omega
  | succ n ih =>
    intro d pos hp0 hpp hpt hn hf F hr
    unfold follow
    rcases Nat.lt_or_ge pos top with hlt | hge
    · have hfp := lead pos hlt hpp
      have hrb := hr _ hfp
      have hid : pageId d.rbuf = b + pos := by rw [hrb, ids]
      have hmod : (b + pos) % c.N = pos := by
        obtain ⟨k, hk⟩ := Nat.dvd_of_mod_eq_zero hb
        rw [hk, Nat.mul_add_mod, Nat.mod_eq_of_lt (by omega)]
      rw [if_pos ⟨by rw [hfp]; rfl, by omega⟩, hid,
        if_pos ⟨hmod, by rw [Nat.mod_eq_of_lt (by omega)]; omega⟩]
      have hrd : (readPage d (pos + 1)).2 = (file (pos + 1)).isSome ∧
          (∀ q, file (pos + 1) = some q → (readPage d (pos + 1)).1.rbuf = q) := by
        cases hq : file (pos + 1) with
        | none => rw [readPage_none F (by rw [hf]; exact hq)]; exact ⟨rfl, by simp⟩
        | some q =>
          obtain ⟨r1, r2, _, _⟩ := readPage_some F (show d.dev.file (pos + 1) = some q by rw [hf]; exact hq)
          refine ⟨r1, ?_⟩
          intro q' hq'
          cases hq'
          exact r2
      obtain ⟨d', e1, e2, e3⟩ := ih (readPage d (pos + 1)).1 (pos + 1) (by omega) (by omega) (by omega) (by omega)
        (by rw [readPage_file]; exact hf) (readPage_fresh F) hrd.2
      refine ⟨d', ?_, (readPage_same d _).trans e2, e3⟩
      simp only
      rw [hrd.1, show b + pos = b + (pos + 1) - 1 by omega]
      exact e1
    · have : pos = top := by omega
      subst this
      refine ⟨d, ?_, SameButCache.refl d, F⟩
      by_cases hc : (file pos).isSome = true ∧ pos < c.N
      · rw [if_pos hc]
        obtain ⟨q, hq⟩ := Option.isSome_iff_exists.mp hc.1
        rw [if_neg]
        rintro ⟨_, h2⟩
        rw [hr q hq] at h2
        apply stop hc.2 q hq
        rw [h2, Nat.mod_eq_of_lt (by omega)]; omega
      · rw [if_neg hc]

/-- The spline after pages `ps`, numbered from `pg`, were added. -/
def addPages (c : Cfg) (s : Spline) : List Page → Nat → Spline
  | [], _ => s
  | p :: t, pg => addPages c (s.add (pageMinKey c p) pg) t (pg + 1)

theorem splineFrom_ok {file : Nat → Option Page} : ∀ (qs : List Page) (d : Data) (pg : Nat),
    d.dev.file = file → Fresh d → pg + qs.length < 2 ^ 32 →
    (∀ i (h : i < qs.length), file ((pg + i) % c.N) = some qs[i]) →
    ∃ d', splineFrom c qs.length d pg = d' ∧ Fresh d' ∧ SameButCache { d with spl := addPages c d.spl qs pg } d' ∧
      d'.buffered = if qs = [] then d.buffered else some ((pg + qs.length - 1) % c.N) := by
  intro qs
  induction qs with
  | nil => intro d pg _ F _ _; exact ⟨d, rfl, F, SameButCache.refl d, by simp⟩
  | cons q t ih =>
    intro d pg hf F h32 hq
    rw [List.length_cons] at h32
    obtain ⟨r1, r2, r3, r4⟩ := readPage_some F (show d.dev.file (pg % c.N) = some q by rw [hf]; exact hq 0 (by simp))
    have E := readPage_same d (pg % c.N)
    obtain ⟨d', e1, e2, e3, e4⟩ := ih { (readPage d (pg % c.N)).1 with
        spl := (readPage d (pg % c.N)).1.spl.add (pageMinKey c (readPage d (pg % c.N)).1.rbuf) pg } (pg + 1)
        (by show (readPage d (pg % c.N)).1.dev.file = file
            rw [readPage_file]; exact hf) r4 (by omega) (by
          intro i hi
          have := hq (i + 1) (by simp; omega)
          simpa [Nat.add_assoc, Nat.add_comm 1 i] using this)
    refine ⟨d', ?_, e2, ?_, ?_⟩
    · rw [List.length_cons, ← e1]
      show splineFrom c t.length _ ((pg + 1) % 2 ^ 32) = _
      rw [Nat.mod_eq_of_lt (show pg + 1 < 2 ^ 32 by omega)]
    · rw [r2] at e3
      exact ⟨e3.dev.trans E.dev, e3.wbuf.trans E.wbuf, e3.next.trans E.next, e3.min.trans E.min, e3.avail.trans E.avail,
        by rw [e3.spl]; show addPages c ((readPage d (pg % c.N)).1.spl.add _ _) _ _ = _; rw [E.spl]; rfl,
        e3.rlcNext.trans E.rlcNext, e3.rlcStart.trans E.rlcStart⟩
    · rw [e4, if_neg (by simp : q :: t ≠ []), List.length_cons]
      by_cases ht : t = []
      · rw [if_pos ht, ht]; exact r3
      · rw [if_neg ht, show pg + 1 + t.length - 1 = pg + (t.length + 1) - 1 by omega]

theorem setCounters_ok {file : Nat → Option Page} (hbs : c.binSearch = false) (hN32 : c.N < 2 ^ 32)
    (h32 : ps.length < 2 ^ 32) (ids : ∀ l (h : l < ps.length), pageId ps[l] = l) {d : Data} (F : Fresh d)
    (hf : d.dev.file = file) {m : Nat} (hm : m < ps.length) (hw : ps.length ≤ m + c.N)
    (live : ∀ l (h : l < ps.length), m ≤ l → file (l % c.N) = some ps[l]) :
    ∃ d', setCounters c d (ps.length - 1) (m % c.N) 0 = d' ∧ Fresh d' ∧ d'.dev = d.dev ∧ d'.wbuf = d.wbuf ∧
      d'.next = ps.length ∧ d'.min = m ∧ d'.next + d'.avail = m + c.N ∧
      d'.spl = addPages c d.spl (ps.drop m) m ∧ d'.rlcNext = d.rlcNext ∧ d'.rlcStart = d.rlcStart ∧
      d'.buffered = some ((ps.length - 1) % c.N) := by
  have hl1 : ps.length - 1 + 1 = ps.length := by omega
  unfold setCounters
  simp only [hl1, Nat.mod_eq_of_lt h32, hbs, Bool.false_eq_true, if_false]
  have F0 : Fresh { d with next := ps.length } := F
  have E1 := readPage_same { d with next := ps.length } (m % c.N)
  obtain ⟨a1, a2, a3, a4⟩ := readPage_some F0 (show d.dev.file (m % c.N) = some ps[m] by rw [hf]; exact live m hm (le_refl _))
  generalize readPage { d with next := ps.length } (m % c.N) = r1 at *
  have hmin : pageId r1.1.rbuf = m := by rw [a2, ids]
  rw [hmin]
  have hav : u32 ((c.N : Int) + m - (ps.length - 1 : Nat) - 1 - (0 : Nat)) = m + c.N - ps.length := by
    unfold u32
    rw [Int.emod_eq_of_lt (by omega) (by omega)]
    omega
  rw [hav]
  have hn1 : r1.1.next = ps.length := E1.next
  have hsub : u32sub r1.1.next 1 = ps.length - 1 := by unfold u32sub; rw [hn1, if_pos (by omega)]
  rw [hsub]
  have F1 : Fresh { r1.1 with min := m, avail := m + c.N - ps.length } := a4
  have hf1 : r1.1.dev.file = file := by rw [E1.dev]; exact hf
  have F2 := readPage_fresh (ph := (ps.length - 1) % c.N) F1
  have E2 := readPage_same { r1.1 with min := m, avail := m + c.N - ps.length } ((ps.length - 1) % c.N)
  generalize readPage { r1.1 with min := m, avail := m + c.N - ps.length } ((ps.length - 1) % c.N) = r2 at *
  have hn2 : r2.1.next = ps.length := E2.next.trans hn1
  have hm2 : r2.1.min = m := E2.min
  have hsub2 : u32sub r2.1.next r2.1.min = (ps.drop m).length := by
    unfold u32sub; rw [hn2, hm2, if_pos (by omega), List.length_drop]
  rw [hsub2, hm2]
  obtain ⟨d', e1, e2, e3, e4⟩ := splineFrom_ok (c := c) (file := file) (ps.drop m) r2.1 m (by rw [E2.dev]; exact hf1) F2
    (by rw [List.length_drop]; omega) (by
      intro i hi
      rw [List.length_drop] at hi
      rw [List.getElem_drop]
      exact live _ _ (by omega))
  refine ⟨d', e1, e2, ?_, ?_, ?_, ?_, ?_, ?_, ?_, ?_, ?_⟩
  · rw [e3.dev]; exact E2.dev.trans E1.dev
  · rw [e3.wbuf]; exact E2.wbuf.trans E1.wbuf
  · rw [e3.next]; exact hn2
  · rw [e3.min]; exact hm2
  · have : d'.avail = m + c.N - ps.length := e3.avail.trans E2.avail
    have : d'.next = ps.length := e3.next.trans hn2
    omega
  · rw [e3.spl]
    show addPages c r2.1.spl _ _ = _
    rw [E2.spl, E1.spl]
  · rw [e3.rlcNext]; exact E2.rlcNext.trans E1.rlcNext
  · rw [e3.rlcStart]; exact E2.rlcStart.trans E1.rlcStart
  · rw [e4, if_neg (by rw [List.drop_eq_nil_iff]; omega), List.length_drop]
    congr 2
    omega

/-! ### The oldest page -/

theorem recovered_small {N B n : Nat} (h : n ≤ N) : Spec.recovered N B n = 0 := by
  unfold Spec.recovered Spec.dropped
  rw [if_pos h, if_neg (by omega)]

theorem recovered_end {N B n : Nat} (hB : 0 < B) (hd : B ∣ N) (h : N ≤ n) (hr : n % N = 0) : Spec.recovered N B n = n - N := by
  have : n % B = 0 := Nat.mod_eq_zero_of_dvd (dvd_trans hd (Nat.dvd_of_mod_eq_zero hr))
  unfold Spec.recovered
  rw [if_neg (by omega), dropped_of_dvd hB hd h this, Nat.add_zero]

theorem recovered_mid {N B n : Nat} (hB : 0 < B) (hd : B ∣ N) (h : N < n) (hr : n % N ≠ 0) :
    Spec.recovered N B n = n - N + (B - n % B) := by
  unfold Spec.recovered
  by_cases hb : n % B = 0
  · rw [if_pos ⟨h, hb, hr⟩, dropped_of_dvd hB hd (by omega) hb, hb, Nat.sub_zero]
  · rw [if_neg (fun h => hb h.2.1), dropped_of_not_dvd hB hd (by omega) hb, Nat.add_zero]

theorem recovered_dvd {N B n : Nat} : B ∣ Spec.recovered N B n := by
  unfold Spec.recovered Spec.dropped
  refine Nat.dvd_add ?_ ?_
  · split_ifs
    · exact dvd_zero _
    · exact Dvd.intro _ rfl
  · split_ifs
    · exact dvd_refl _
    · exact dvd_zero _

theorem recovered_mono {N B n m : Nat} (hB : 0 < B) (hd : B ∣ N) (h : n ≤ m) : Spec.recovered N B n ≤ Spec.recovered N B m := by
  rcases Nat.lt_or_ge N n with hn | hn
  · have up : ∀ x, x + (B - x % B) = B * (x / B + 1) := by
      intro x
      have h1 := Nat.div_add_mod x B
      have h2 := Nat.mod_lt x hB
      rw [Nat.mul_add, Nat.mul_one]
      omega
    by_cases hm : m % N = 0
    · rw [recovered_end hB hd (by omega) hm]
      by_cases hr : n % N = 0
      · rw [recovered_end hB hd (by omega) hr]; omega
      · rw [recovered_mid hB hd hn hr]
        have h1 : m = B * (m / B) := (Nat.mul_div_cancel' (dvd_trans hd (Nat.dvd_of_mod_eq_zero hm))).symm
        have hne : n ≠ m := fun h => hr (by rw [h]; exact hm)
        have h2 : n / B < m / B := Nat.div_lt_of_lt_mul (by omega)
        have h3 := Nat.mul_le_mul_left B (show n / B + 1 ≤ m / B by omega)
        have h4 := up n
        omega
    · rw [recovered_mid hB hd (by omega) hm]
      by_cases hr : n % N = 0
      · rw [recovered_end hB hd (by omega) hr]; omega
      · rw [recovered_mid hB hd hn hr]
        have h2 : n / B ≤ m / B := Nat.div_le_div_right h
        have h3 := Nat.mul_le_mul_left B (show n / B + 1 ≤ m / B + 1 by omega)
        have h4 := up n
        have h5 := up m
        omega
  · rw [recovered_small hn]; omega

theorem dropped_le_recovered (N B n : Nat) : Spec.dropped N B n ≤ Spec.recovered N B n := by
  unfold Spec.recovered; omega

theorem recovered_lt {N B n : Nat} (hB : 0 < B) (hd : B ∣ N) (hBN : B < N) (h : 0 < n) : Spec.recovered N B n < n := by
  rcases Nat.lt_or_ge N n with h1 | h1
  · by_cases h2 : n % N = 0
    · rw [recovered_end hB hd (by omega) h2]; omega
    · rw [recovered_mid hB hd h1 h2]; omega
  · rw [recovered_small h1]; omega

/-- Opening the file of a table with pages `ps`. -/
theorem recoverPlain_ok {file : Nat → Option Page} (hB : 0 < c.B) (hd : c.B ∣ c.N) (h2 : 2 * c.B ≤ c.N)
    (hbs : c.binSearch = false) (h127 : c.maxRec ≤ 127) (hN32 : c.N < 2 ^ 32) (hP : ps.length < P) (hP32 : P ≤ 2 ^ 32)
    (hv : Vacant c init) (I : Image c P init ps er file)
    (hz : er = true → ps.length % c.N = 0 → ∀ l (h : l < ps.length), ps.length ≤ l + c.N → file (l % c.N) = some ps[l])
    {d : Data} (F : Fresh d) (hf : d.dev.file = file) (hne : ps ≠ []) :
    ∃ d', recoverPlain c d = (d', 0) ∧ Fresh d' ∧ d'.dev = d.dev ∧ d'.wbuf = d.wbuf ∧
      d'.next = ps.length ∧ d'.min = Spec.recovered c.N c.B ps.length ∧
      d'.next + d'.avail = Spec.recovered c.N c.B ps.length + c.N ∧
      d'.spl = addPages c d.spl (ps.drop (Spec.recovered c.N c.B ps.length)) (Spec.recovered c.N c.B ps.length) ∧
      d'.min < d'.next ∧ d'.buffered = some ((ps.length - 1) % c.N) := by
  have hN : 0 < c.N := by omega
  have hl0 : 0 < ps.length := List.length_pos_iff.mpr hne
  -- the last lap: pages b .. b+top-1 are at 0 .. top-1
  obtain ⟨b, top, hb, hlen, ht0, htN⟩ : ∃ b top, b % c.N = 0 ∧ ps.length = b + top ∧ 0 < top ∧ top ≤ c.N := by
    have h1 := Nat.div_add_mod (ps.length - 1) c.N
    have h3 := Nat.mod_lt (ps.length - 1) hN
    exact ⟨c.N * ((ps.length - 1) / c.N), (ps.length - 1) % c.N + 1, Nat.mul_mod_right _ _, by omega, by omega, by omega⟩
  have lead : ∀ ph (h : ph < top), file ph = some (ps[b + ph]'(by omega)) :=
    fun ph h => I.lead hB hd hz hb hlen ht0 htN h
  have hmodN : ps.length % c.N = top % c.N := by
    obtain ⟨k, hk⟩ := Nat.dvd_of_mod_eq_zero hb
    rw [hlen, hk, Nat.mul_add_mod]
  have hmodB : ps.length % c.B = top % c.B := by
    obtain ⟨k, hk⟩ := dvd_trans hd (Nat.dvd_of_mod_eq_zero hb)
    rw [hlen, hk, Nat.mul_add_mod]
  have hbig : ∀ q, top < c.N → file top = some q → c.N < ps.length ∨ (b = 0 ∧ init top = some q) := by
    intro q h1 h2
    rcases Nat.lt_or_ge c.N ps.length with hle | hle
    · exact Or.inl hle
    right
    have hb0 : b = 0 := by
      obtain ⟨k, hk⟩ := Nat.dvd_of_mod_eq_zero hb
      rcases Nat.eq_zero_or_pos k with hk0 | hk0
      · rw [hk, hk0, Nat.mul_zero]
      · have := Nat.mul_le_mul_left c.N hk0
        omega
    have := I.empty (by omega) top (by omega)
    rw [h2] at this
    exact ⟨hb0, this.symm⟩
  have hblank : b = 0 → top < c.N → ∀ q, init top = some q → ∀ ph, ph < c.N → ∃ q, init ph = some q ∧ looksValid c q ph = false ∧
      (0 < ph → pageId q ≠ ph ∧ (c.B ∣ ph → pageId q % c.N ≠ ph)) := by
    intro _ h1 q hq
    rcases hv.pages with h | h
    · rw [h top] at hq; cases hq
    · exact h
  have stop : top < c.N → ∀ q, file top = some q → pageId q ≠ b + top := by
    intro h1 q h3 h4
    rcases hbig q h1 h3 with hb' | ⟨hb0, hq⟩
    case inr =>
      obtain ⟨q', q1, _, q2⟩ := hblank hb0 h1 q hq top h1
      rw [hq] at q1
      cases q1
      exact (q2 ht0).1 (by omega)
    have e : (ps.length - c.N) % c.N = top := by
      rw [← Nat.mod_eq_sub_mod (by omega), hmodN, Nat.mod_eq_of_lt h1]
    obtain ⟨q', q1, q2⟩ := I.old (ps.length - c.N) (by omega) (by omega)
    rw [e, h3] at q1
    cases q1
    rcases q2 with q2 | q2 <;> omega
  -- the first page
  unfold recoverPlain
  simp only
  have h0 : file 0 = some (ps[b]'(by omega)) := lead 0 ht0
  obtain ⟨a1, a2, a3, a4⟩ := readPage_some F (show d.dev.file 0 = some _ by rw [hf]; exact h0)
  have E1 := readPage_same d 0
  rw [a1]
  generalize (readPage d 0).1 = d1 at *
  have hf1 : d1.dev.file = file := by rw [E1.dev]; exact hf
  have hcnt := I.cnt (ps[b]'(by omega)) (List.getElem_mem _)
  have hvalid : looksValid c d1.rbuf 0 = true := by
    unfold looksValid toInt8
    rw [a2, I.ids b (by omega)]
    simp only [gt_iff_lt, decide_eq_true_eq]
    rw [Nat.mod_eq_of_lt (show pageCount (ps[b]'(by omega)) < 256 by omega), if_pos (by omega)]
    refine ⟨hb, by omega, by omega⟩
  unfold probe
  rw [if_pos rfl, if_pos hvalid]
  simp only
  rw [a2, I.ids b (by omega)]
  have hrd : (readPage d1 (0 + 1)).2 = (file 1).isSome ∧ (∀ q, file 1 = some q → (readPage d1 (0 + 1)).1.rbuf = q) := by
    cases hq : file 1 with
    | none => rw [readPage_none a4 (by rw [hf1]; exact hq)]; exact ⟨rfl, by simp⟩
    | some q =>
      obtain ⟨r1, r2, _, _⟩ := readPage_some a4 (show d1.dev.file (0 + 1) = some q by rw [hf1]; exact hq)
      refine ⟨r1, ?_⟩
      intro q' hq'
      cases hq'
      exact r2
  have E2 := readPage_same d1 (0 + 1)
  have F2 : Fresh (readPage d1 (0 + 1)).1 := readPage_fresh a4
  rw [hrd.1]
  have hr2 := hrd.2
  generalize (readPage d1 (0 + 1)).1 = d2 at *
  have hf2 : d2.dev.file = file := by rw [E2.dev]; exact hf1
  obtain ⟨d3, e1, e2, e3⟩ := follow_ok (c := c) (p0 := 0) hlen htN hb (by omega) I.ids (fun ph h _ => lead ph h) stop c.N d2 1 (by omega) (by omega) (by omega) (by omega)
    hf2 F2 hr2
  rw [show b + 1 - 1 = b by omega] at e1
  rw [Nat.zero_add, e1]
  simp only
  have hf3 : d3.dev.file = file := by rw [e2.dev]; exact hf2
  have hdev : d3.dev = d.dev := by rw [e2.dev, E2.dev, E1.dev]
  have hwb : d3.wbuf = d.wbuf := by rw [e2.wbuf, E2.wbuf, E1.wbuf]
  have hspl : d3.spl = d.spl := by rw [e2.spl, E2.spl, E1.spl]
  have hlast : b + top - 1 = ps.length - 1 := by omega
  rw [hlast]
  unfold finishRecover
  by_cases hc : (file top).isSome = true ∧ top < c.N
  · -- wrapped
    rw [if_pos hc]
    simp only
    obtain ⟨q, hq⟩ := Option.isSome_iff_exists.mp hc.1
    rcases hbig q hc.2 hq with hbg | ⟨hb0, hq0⟩
    case inr =>
      -- not wrapped, on a device whose blank pages can be read
      subst hb0
      have hm := recovered_small (N := c.N) (B := c.B) (n := ps.length) (by omega)
      rw [hm]
      have hlive : ∀ l (h : l < ps.length), 0 ≤ l → file (l % c.N) = some ps[l] := by
        intro l h _
        have := lead l (by omega)
        rw [Nat.mod_eq_of_lt (by omega), this]
        simp only [Nat.zero_add]
      obtain ⟨ph, hph⟩ : ∃ ph, ph = (top + (c.B - top % c.B)) % c.N := ⟨_, rfl⟩
      rw [← hph]
      obtain ⟨q', hq', hid⟩ : ∃ q', file ph = some q' ∧ (if pageId q' % c.N = ph then ph else 0) = 0 % c.N := by
        have hBlt := Nat.mod_lt top hB
        have hle : top + (c.B - top % c.B) ≤ c.N := by
          have h1 := Nat.div_add_mod top c.B
          obtain ⟨j, hj⟩ := hd
          have h4 : top / c.B < j := by
            rw [Nat.div_lt_iff_lt_mul hB, Nat.mul_comm]; omega
          have := Nat.mul_le_mul_left c.B h4
          rw [Nat.mul_succ] at this
          omega
        rcases Nat.lt_or_ge (top + (c.B - top % c.B)) c.N with h5 | h5
        · rw [Nat.mod_eq_of_lt h5] at hph
          obtain ⟨q', q1, _, q2⟩ := hblank rfl hc.2 q hq0 ph (by omega)
          refine ⟨q', by rw [I.empty (by omega) ph (by omega)]; exact q1, ?_⟩
          rw [if_neg, Nat.zero_mod]
          refine (q2 (by omega)).2 ?_
          have h1 := Nat.div_add_mod top c.B
          refine ⟨top / c.B + 1, ?_⟩
          rw [Nat.mul_succ]
          omega
        · rw [show top + (c.B - top % c.B) = c.N by omega, Nat.mod_self] at hph
          refine ⟨_, by rw [hph]; exact h0, ?_⟩
          rw [hph, Nat.zero_mod]
          simp
      obtain ⟨b1, b2, b3, b4⟩ := readPage_some e3 (show d3.dev.file ph = some q' by rw [hf3]; exact hq')
      have E4 := readPage_same d3 ph
      rw [if_pos b1, b2, hid]
      obtain ⟨d', g1, g2, g3, g4, g5, g6, g7, g8, _, _, g9⟩ := setCounters_ok (ps := ps) (file := file) hbs hN32 (by omega) I.ids b4
        (by rw [readPage_file]; exact hf3) (m := 0) (by omega) (by omega) hlive
      refine ⟨d', by rw [g1], g2, g3.trans (E4.dev.trans hdev), g4.trans (E4.wbuf.trans hwb), g5, g6, g7, ?_, by omega, g9⟩
      rw [g8, E4.spl, hspl]
    have hm := recovered_mid hB hd hbg (by rw [hmodN, Nat.mod_eq_of_lt hc.2]; omega)
    have hBlt := Nat.mod_lt ps.length hB
    generalize hmm : Spec.recovered c.N c.B ps.length = m at *
    have hph : (top + (c.B - top % c.B)) % c.N = m % c.N := by
      rw [← hmodB, hm]
      have e : (ps.length - c.N) % c.N = top := by
        rw [← Nat.mod_eq_sub_mod (by omega), hmodN, Nat.mod_eq_of_lt hc.2]
      conv_rhs => rw [Nat.add_mod, e]
      conv_lhs => rw [Nat.add_mod, Nat.mod_eq_of_lt hc.2]
    have hlive : ∀ l (h : l < ps.length), m ≤ l → file (l % c.N) = some ps[l] := by
      intro l h hl
      apply I.live l h
      by_cases he : er = true
      · rw [if_pos he]
        obtain ⟨m1, m2⟩ := I.mid he
        rw [dropped_of_dvd hB hd m1 m2]
        omega
      · rw [if_neg he]
        by_cases hb0 : ps.length % c.B = 0
        · rw [dropped_of_dvd hB hd (by omega) hb0]; omega
        · rw [dropped_of_not_dvd hB hd (by omega) hb0]; omega
    rw [hph]
    obtain ⟨b1, b2, b3, b4⟩ := readPage_some e3 (show d3.dev.file (m % c.N) = some (ps[m]'(by omega)) by
      rw [hf3]; exact hlive m (by omega) (le_refl _))
    have E4 := readPage_same d3 (m % c.N)
    rw [if_pos b1, b2, I.ids, if_pos rfl]
    obtain ⟨d', g1, g2, g3, g4, g5, g6, g7, g8, _, _, g9⟩ := setCounters_ok (ps := ps) (file := file) hbs hN32 (by omega) I.ids b4
      (by rw [readPage_file]; exact hf3) (m := m) (by omega) (by omega) hlive
    refine ⟨d', by rw [g1], g2, g3.trans (E4.dev.trans hdev), g4.trans (E4.wbuf.trans hwb), g5, g6, g7, ?_, by omega, g9⟩
    rw [g8, E4.spl, hspl]
  · rw [if_neg hc]
    have hm : Spec.recovered c.N c.B ps.length = b ∧ ps.length ≤ b + c.N := by
      rcases Nat.lt_or_ge c.N ps.length with hbg | hsm
      · have hN' : ¬ top < c.N := by
          intro h
          apply hc
          refine ⟨?_, h⟩
          obtain ⟨q, q1, _⟩ := I.old (ps.length - c.N) (by omega) (by omega)
          rw [← Nat.mod_eq_sub_mod (by omega), hmodN, Nat.mod_eq_of_lt h] at q1
          rw [q1]; rfl
        have htop : top = c.N := by omega
        rw [recovered_end hB hd (by omega) (by rw [hmodN, htop, Nat.mod_self])]
        omega
      · rw [recovered_small hsm]
        obtain ⟨k, hk⟩ := Nat.dvd_of_mod_eq_zero hb
        rcases Nat.eq_zero_or_pos k with hk0 | hk0
        · rw [hk, hk0, Nat.mul_zero]; omega
        · have := Nat.mul_le_mul_left c.N hk0
          omega
    obtain ⟨hm, hw⟩ := hm
    have hlive : ∀ l (h : l < ps.length), b ≤ l → file (l % c.N) = some ps[l] := by
      intro l h hl
      have := lead (l - b) (by omega)
      have e : l % c.N = l - b := by
        obtain ⟨k, hk⟩ := Nat.dvd_of_mod_eq_zero hb
        obtain ⟨t, rfl⟩ := Nat.exists_eq_add_of_le hl
        rw [hk, Nat.mul_add_mod, Nat.mod_eq_of_lt (by omega)]; omega
      rw [e, this]
      simp only [show b + (l - b) = l by omega]
    rw [hm]
    obtain ⟨d', g1, g2, g3, g4, g5, g6, g7, g8, _, _, g9⟩ := setCounters_ok (ps := ps) (file := file) hbs hN32 (by omega) I.ids e3 hf3
      (m := b) (by omega) hw hlive
    rw [hb] at g1
    refine ⟨d', by rw [g1], g2, g3.trans hdev, g4.trans hwb, g5, g6, g7, by rw [g8, hspl], by omega, g9⟩

end

end EDB
