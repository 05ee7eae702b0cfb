import Verif.Proofs.RlcOpen

/-! Helper lemmas: opening a file with record-level consistency. -/

namespace EDB

open Spec (Log KeepsPermanent)

section
variable {c : Cfg} {P : Nat} {ps : List Page} {S fr : Nat} {t : Option Page}

theorem Blanked.same {d d' : Data} (Z : Blanked c d) (E : SameButCache d d') : Blanked c d' :=
  ⟨by rw [E.next]; exact Z.next, by rw [E.min]; exact Z.min, by rw [E.avail]; exact Z.avail, by rw [E.wbuf]; exact Z.wbuf⟩

/-- The area for temporary pages in use after recovery. -/
theorem RImg.settle (G : RlcGeo c) {file : Nat → Option Page} (I : RImg c P ps S fr t file) :
    ∃ fr', RImg c P ps (areaOf c.B ps.length) fr' t file ∧ (t = none → fr' = 0) := by
  have hlo := I.lo
  by_cases h : S = ps.length
  · have := I.shift G h
    obtain ⟨_, p2⟩ := I.pre h
    rw [areaOf_unique G.B0 this.dvd (by have := G.B0; omega) this.hi] at this
    exact ⟨0, by rw [p2]; exact this, fun _ => rfl⟩
  · have hlt : ps.length < S := by omega
    have e := areaOf_unique G.B0 I.dvd hlt I.hi
    rw [e] at I hlt
    cases t with
    | none => exact ⟨0, I.restart hlt, fun _ => rfl⟩
    | some p => exact ⟨fr, I, fun h => by cases h⟩

theorem area_of_pos (G : RlcGeo c) {pos n : Nat} (h1 : pos % c.N = n % c.N) (h2 : pos % c.B = n % c.B) :
    (pos + (c.B - pos % c.B)) % c.N = areaOf c.B n % c.N := by
  have e : areaOf c.B n = n + (c.B - n % c.B) := by
    have a1 := Nat.div_add_mod n c.B
    have a2 := Nat.mod_lt n G.B0
    have e : areaOf c.B n = c.B * (n / c.B) + c.B := by unfold areaOf; ring
    omega
  rw [e, h2]
  rw [Nat.add_mod, h1, ← Nat.add_mod]

/-- The state, the storage operations and the stored records when a file has been opened. -/
structure Recovered (c : Cfg) (P : Nat) (ps : List Page) (t : Option Page) (fr : Nat) (d d' : Data) (evs : List Ev) : Prop where
  dev : d'.dev = devRun c d.dev evs
  img : RImg c P ps (areaOf c.B ps.length) fr t d'.dev.file
  opened : Opened c ps (areaOf c.B ps.length) d d'
  start : d'.rlcStart = areaOf c.B ps.length % c.N
  nxt : d'.rlcNext % c.N = (areaOf c.B ps.length + fr) % c.N
  wbuf : d'.wbuf = t.getD (initPage c)
  trail : ∀ (R : Log → Prop) (L : Log), R L → ps.map (recs c) = L.pages → (t.map (recs c)).getD [] = L.buf →
    Trail c P R L d.dev.file evs L d'.dev.file
  erases : ∀ ph q, Ev.write ph q ∉ evs

theorem rlcBoundary_ok (G : RlcGeo c) (hio : ∀ n, c.ioOk n = true) (hE : RlcEraser c P) (hbs : c.binSearch = false)
    (hN32 : c.N < 2 ^ 32) (hP32 : P ≤ 2 ^ 32) (hP2 : 2 ≤ P) {pos : Nat} {d : Data}
    (I : RImg c P ps S fr t d.dev.file) (h1 : pos % c.N = ps.length % c.N) (h2 : pos % c.B = ps.length % c.B) (h3 : pos ≤ c.N)
    (F : Fresh d) (Z : Blanked c d) :
    ∃ d' evs fr', rlcBoundary c d pos (lastPage ps.length) = (d', 0) ∧ Recovered c P ps t fr' d d' evs := by
  have hB := G.B0
  have h4 := G.four
  have hlo := I.lo
  have hhi := I.hi
  obtain ⟨b1, b2⟩ := areaOf_bounds hB ps.length
  have hpos := area_of_pos G h1 h2
  -- from here on after the erase
  have main : ∀ v evs0, v = devRun c d.dev evs0 → (∀ ph q, Ev.write ph q ∉ evs0) → RImg c P ps S fr t v.file →
      FreshX (JunkAt c ps.length (areaOf c.B ps.length)) { d with dev := v } →
      (∀ (R : Log → Prop) (L : Log), R L → ps.map (recs c) = L.pages → (t.map (recs c)).getD [] = L.buf →
        Trail c P R L d.dev.file evs0 L v.file) →
      ∃ d' evs fr', rlcTemp c { d with dev := v } pos (lastPage ps.length) = (d', 0) ∧ Recovered c P ps t fr' d d' evs := by
    intro v evs0 hv hne I' F' T
    obtain ⟨fr', I2, hfr⟩ := I'.settle G
    obtain ⟨d', evs, g1, g2, g3, g4, g5, g6, g7, g9, g8⟩ := rlcTemp_ok (d := { d with dev := v }) G hio hE hbs hN32 hP32 hP2 I2 b1 hpos F'
      ⟨Z.next, Z.min, Z.avail, Z.wbuf⟩ hfr
    refine ⟨d', evs0 ++ evs, fr', g1, ?_, g3, ⟨g4.next, g4.min, g4.avail, g4.spl, g4.cache⟩, g5, g6, g7, ?_,
      fun ph q h => (List.mem_append.mp h).elim (hne ph q) (g9 ph q)⟩
    · rw [g2, ← devRun_append, hv]
    · intro R L r1 r2 r3
      exact (T R L r1 r2 r3).append (g8 R L r1 r2 r3)
  have hst : ∀ (L : Log), ps.map (recs c) = L.pages → (t.map (recs c)).getD [] = L.buf → StoredR c P L d.dev.file :=
    fun L l1 l2 => ⟨ps, S, fr, t, I, l1, l2⟩
  unfold rlcBoundary
  by_cases hb : c.B - pos % c.B = c.B
  · rw [if_pos hb]
    have hp0 : pos % c.B = 0 := by have := Nat.mod_lt pos hB; omega
    have hdn : c.B ∣ ps.length := Nat.dvd_of_mod_eq_zero (by omega)
    simp only [erase_run hio, if_true]
    rcases Nat.lt_or_ge pos c.N with hpN | hpN
    · rw [Nat.mod_eq_of_lt hpN] at h1
      have ht : t ≠ none → S + fr ≤ ps.length ∨ ps.length + c.B < S + fr := by
        intro ht
        right
        have hne : S ≠ ps.length := fun h => ht (I.pre h).2
        have : S = areaOf c.B ps.length := areaOf_unique hB I.dvd (by omega) hhi
        have h5 : ps.length + c.B = areaOf c.B ps.length :=
          areaOf_unique hB ((Nat.dvd_add_right hdn).mpr (dvd_refl _)) (by omega) (by omega)
        obtain ⟨p, hp⟩ := Option.ne_none_iff_exists'.mp ht
        have := (I.temp p hp).1
        omega
      have d0 : NoErase c ∨ ∀ a, ps.length ≤ a → a < ps.length → c.B ∣ a → Dead c d.dev.file a :=
        Or.inr fun a a1 a2 => absurd a1 (by omega)
      refine main _ [.erase pos (pos + c.B)] rfl (by simp) ?_ ?_ ?_
      · rw [h1]; exact (I.erase G hE hdn (le_refl _) (by omega) d0 ht).1
      · rw [h1]
        refine FreshX.erase G F.toX hdn (le_refl _) (le_of_eq ?_)
        exact areaOf_unique hB ((Nat.dvd_add_right hdn).mpr (dvd_refl _)) (by omega) (by omega)
      · intro R L r1 r2 r3
        rw [h1]
        exact trail_erase G hE I r2 r3 r1 hdn (le_refl _) (by omega) d0 ht
    · have e : pos = c.N := by omega
      have hno : Spec.applyEv c.eraseFx d.dev.file (.erase pos (pos + c.B)) = d.dev.file :=
        applyEv_none hE fun i hi _ => I.out i (by omega)
      have hf : (devRun c d.dev [.erase pos (pos + c.B)]).file = d.dev.file := hno
      refine main _ [.erase pos (pos + c.B)] rfl (by simp) (by rw [hf]; exact I) ?_ ?_
      · refine Fresh.toX ?_
        intro ph hph
        show (devRun c d.dev [.erase pos (pos + c.B)]).file ph = _
        rw [hf]; exact F ph hph
      · intro R L r1 r2 r3
        have := Trail.one (c := c) (P := P) (R := R) (file := d.dev.file) (L := L) (L' := L) (e := .erase pos (pos + c.B)) r1 (hst L r2 r3) (by
          intro m hm
          refine ⟨fun l _ => ?_, hm⟩
          have := Nat.mod_lt l G.N0
          omega) (fun ph q h => by cases h) r1 (by rw [hno]; exact hst L r2 r3)
        exact this
  · rw [if_neg hb]
    refine main d.dev [] (devRun_nil _ _).symm (by simp) I ?_ (fun R L r1 r2 r3 => .nil r1 (hst L r2 r3))
    exact F.toX

/-- No page looks like a data page. -/
theorem probe_none {file : Nat → Option Page} (h : ∀ ph q, file ph = some q → looksValid c q ph = false) :
    ∀ (k : Nat) (d : Data) (pos : Nat) (more : Bool), d.dev.file = file → Fresh d → more = (file pos).isSome →
      (∀ q, file pos = some q → d.rbuf = q) →
      ∃ d' pos' more', probe c k d pos more = ⟨d', pos', none, more'⟩ ∧ SameButCache d d' ∧ Fresh d' := by
  intro k
  induction k with
  | zero => intro d pos more _ F _ _; exact ⟨d, pos, more, rfl, SameButCache.refl d, F⟩
  | succ k ih =>
    intro d pos more hf F hm hr
    unfold probe
    cases hq : file pos with
    | none =>
      rw [hq] at hm
      rw [hm]
      exact ⟨d, pos, false, rfl, SameButCache.refl d, F⟩
    | some q =>
      rw [hq] at hm
      rw [hm, hr q hq, h pos q hq]
      simp only [Option.isSome_some, if_true, Bool.false_eq_true, if_false]
      obtain ⟨r1, r2⟩ := readX_opt (X := fun _ => False) (ph := pos + c.B) F.toX id
      rw [hf] at r1 r2
      obtain ⟨d', pos', more', e1, e2, e3⟩ := ih (readPage d (pos + c.B)).1 (pos + c.B) (readPage d (pos + c.B)).2
        (by rw [readPage_file]; exact hf) (readPage_fresh F) r1 r2
      exact ⟨d', pos', more', e1, (readPage_same d _).trans e2, e3⟩

/-- Recovery from any file as it may be left behind. -/
theorem recoverRlc_ok (G : RlcGeo c) (h127 : c.maxRec ≤ 127) (hio : ∀ n, c.ioOk n = true) (hE : RlcEraser c P) (hbs : c.binSearch = false)
    (hN32 : c.N < 2 ^ 32) (hP32 : P ≤ 2 ^ 32) (hP2 : 2 ≤ P) {d : Data}
    (I : RImg c P ps S fr t d.dev.file) (F : Fresh d) (Z : Blanked c d) :
    ∃ d' evs fr', recoverRlc c d = (d', 0) ∧ Recovered c P ps t fr' d d' evs := by
  have hB := G.B0
  by_cases hne : ps = []
  · have hn : ps.length = 0 := by rw [hne]; rfl
    have hlook : ∀ ph q, d.dev.file ph = some q → looksValid c q ph = false := by
      intro ph q hq
      rw [Bool.eq_false_iff]
      intro hv
      unfold looksValid at hv
      simp only [gt_iff_lt, decide_eq_true_eq] at hv
      rcases Nat.lt_or_ge ph (S + 2 * c.B) with h | h
      · have h4 := G.four
        have hhi := I.hi
        rcases I.junk ph (by omega) h q (by rw [Nat.mod_eq_of_lt (by omega)]; exact hq) with j | j | j
        · omega
        · have := j.1; omega
        · apply j.2
          rw [Nat.mod_eq_of_lt (show ph < c.N by omega)]
          exact hv.1
      · have := (I.far ph h q hq).1.1
        omega
    obtain ⟨a1, a2⟩ := readX_opt (X := fun _ => False) (ph := 0) F.toX id
    obtain ⟨d1, pos, more, b1, b2, b3⟩ := probe_none (c := c) hlook 4 (readPage d 0).1 0 (readPage d 0).2 (by rw [readPage_file])
      (readPage_fresh F) a1 a2
    have E := (readPage_same d 0).trans b2
    rw [← E.dev] at I
    obtain ⟨d', evs, fr', g1, g2⟩ := rlcBoundary_ok (pos := 0) (d := d1) G hio hE hbs hN32 hP32 hP2 I (by rw [hn]) (by rw [hn])
      (Nat.zero_le _) b3 (Z.same E)
    refine ⟨d', evs, fr', ?_, ⟨by rw [g2.dev, E.dev], g2.img, ⟨g2.opened.next, g2.opened.min, g2.opened.avail, ?_, g2.opened.cache⟩,
      g2.start, g2.nxt, g2.wbuf, ?_, g2.erases⟩⟩
    · rw [← g1]
      unfold recoverRlc
      simp only
      rw [b1]
      unfold lastPage
      rw [if_pos hn]
    · rw [g2.opened.spl, E.spl]
    · rw [← E.dev]; exact g2.trail
  · obtain ⟨d1, top, more, t1, t2, t3, t4, t5, t6, t7, _⟩ := newest_ok G h127 hP32 I hne F rfl
    rw [← t6.dev] at I
    obtain ⟨d', evs, fr', g1, g2⟩ := rlcBoundary_ok (d := d1) G hio hE hbs hN32 hP32 hP2 I t3 t4 t2 t7 (Z.same t6)
    have hl : ps.length ≠ 0 := fun h => hne (List.length_eq_zero_iff.mp h)
    refine ⟨d', evs, fr', ?_, ⟨by rw [g2.dev, t6.dev], g2.img, ⟨g2.opened.next, g2.opened.min, g2.opened.avail, ?_, g2.opened.cache⟩,
      g2.start, g2.nxt, g2.wbuf, ?_, g2.erases⟩⟩
    · rw [t5, ← g1]; unfold lastPage; rw [if_neg hl]
    · rw [g2.opened.spl, t6.spl]
    · rw [← t6.dev]; exact g2.trail

/-- What any log of ascending inserts satisfies. -/
structure OrderedLog (c : Cfg) (lo K : Nat) (L : Log) : Prop where
  full : ∀ pg ∈ L.pages, pg ≠ []
  sorted : L.all.Pairwise (fun r s => r.1 < s.1)
  bound : ∀ r ∈ L.all, lo ≤ r.1 ∧ r.1 < K
  cap : Capped c.maxRec L

/-- A state that was recovered describes the log in storage. -/
theorem Recovered.sim {lo K : Nat} (hok : RlcOk c K P) (hB : Bounds c lo K P) {L : Log} (g : OrderedLog c lo K L)
    (hp : ps.map (recs c) = L.pages) (ht : (t.map (recs c)).getD [] = L.buf) {d d' : Data} {evs : List Ev}
    (R : Recovered c P ps t fr d d' evs) {sm : Nat → Nat × Nat} (hspl : d.spl = Spline.init c.splSize c.maxErr sm) :
    (d'.min = 0 ∨ c.maxErr ≤ 1) ∧ Sim c lo K d'.min (clr d') L ∧ (0 < d'.next → Sim c lo K d'.min d' L) := by
  have G := hok.geo
  have hB0 := hok.B0
  have h4 := hok.four
  have I := R.img
  have hPl := I.lt
  have hP32 : P < 2 ^ 32 := hB.pages
  obtain ⟨b1, b2⟩ := areaOf_bounds hB0 ps.length
  have hO := R.opened
  have hn := hO.next
  have hm := hO.min
  have hav := hO.avail
  have hll : L.pages.length = ps.length := by rw [← hp, List.length_map]
  have hs : d'.min = 0 ∨ c.maxErr ≤ 1 := by
    rcases hok.start with h | h
    · exact Or.inr h
    · left; omega
  have hps' : ∀ l (h : l < ps.length), recs c ps[l] = L.pages[l]'(by omega) := by
    intro l h
    have := List.getElem_map (recs c) (l := ps) (i := l) (h := by simp; omega)
    rw [← this]
    simp only [hp]
  have hlive : ∀ l (h : l < ps.length), d'.min ≤ l → d'.dev.file (l % c.N) = some ps[l] :=
    fun l h hl => I.live l h (by omega)
  have hkey : ∀ p (hp : p < ps.length), ∃ hh : L.pages[p]'(by omega) ≠ [], firstKey L p = ((L.pages[p]'(by omega)).head hh).1 := by
    intro p hp
    exact ⟨g.full _ (List.getElem_mem _), firstKey_eq (by omega) _⟩
  have hfk : ∀ l (h : l < ps.length), pageMinKey c ps[l] = firstKey L l := by
    intro l h
    obtain ⟨a1, a2⟩ := hkey l h
    rw [a2]
    have := hps' l h
    generalize L.pages[l]'(by omega) = pg at this a1
    cases pg with
    | nil => exact absurd rfl a1
    | cons r t => exact pageMinKey_eq this
  have hmono : ∀ p q, p < q → q < ps.length → firstKey L p < firstKey L q := by
    intro p q h1 h2
    obtain ⟨a1, a2⟩ := hkey p (by omega)
    obtain ⟨b1, b2⟩ := hkey q h2
    rw [a2, b2]
    exact Log_pages_sorted g.sorted h1 (by omega) _ (List.head_mem a1) _ (List.head_mem b1)
  have hbound : ∀ p, p < ps.length → lo ≤ firstKey L p ∧ firstKey L p < K := by
    intro p h1
    obtain ⟨a1, a2⟩ := hkey p h1
    rw [a2]
    exact g.bound _ (mem_all_page (by omega) (List.head_mem a1))
  have hspl' := addPages_inv (c := c) (m := d'.min) (h := firstKey L) (ps.drop d'.min) (Spline.init c.splSize c.maxErr sm)
    d'.min (Spline.Inv.init _ _ _ _ _ hok.spl) hs (by
      intro i hi
      rw [List.length_drop] at hi
      rw [List.getElem_drop]
      exact hfk _ (by omega)) (by
      intro i hi
      rw [List.length_drop] at hi
      refine ⟨fun p q _ h2 h3 => hmono p q h2 (by omega), ?_, by omega⟩
      have h1 := hbound (d'.min + i + 1 - 1) (by omega)
      have h2 := hbound d'.min (by omega)
      refine lt_of_le_of_lt ?_ hB.prod
      exact Nat.mul_le_mul (by omega) (show _ ≤ P + c.maxErr from by
        show d'.min + i + 1 + c.maxErr ≤ P + c.maxErr
        omega))
  have hmn : d'.min ≤ ps.length := by
    by_contra h
    have : ps.length = 0 := by omega
    omega
  rw [List.length_drop, show d'.min + (ps.length - d'.min) = ps.length by omega, ← hspl, hm, ← hO.spl, ← hm, ← hn] at hspl'
  have hst : ∀ l, d'.min ≤ l → ∀ h : l < L.pages.length, ∃ p, d'.dev.file (l % c.N) = some p ∧ recs c p = L.pages[l] ∧
      pageId p = l % 2 ^ 32 := by
    intro l hl h
    refine ⟨_, hlive l (by omega) hl, hps' l (by omega), ?_⟩
    rw [I.ids, Nat.mod_eq_of_lt (by omega)]
  have hwb : recs c d'.wbuf = L.buf := by
    rw [R.wbuf, ← ht]
    cases t with
    | none => exact recs_init c
    | some p => rfl
  refine ⟨hs, ⟨by show d'.next = _; omega, le_refl _, by show d'.min ≤ d'.next; omega, by show 0 < d'.next → d'.min < d'.next; omega,
    by show d'.next ≤ d'.min + c.N; omega, hst, hwb, g.full, g.sorted, g.bound, hspl'.1, by rw [show (clr d').spl = d'.spl from rfl, hspl'.2, hspl]; rfl, ?_, ?_⟩, ?_⟩
  · intro ph h; simp [EDB.clr] at h
  · intro ph h; simp [EDB.clr] at h
  · intro h0
    obtain ⟨c1, c2⟩ := hO.cache (by omega)
    refine ⟨by show d'.next = _; omega, le_refl _, by show d'.min ≤ d'.next; omega, by show 0 < d'.next → d'.min < d'.next; omega,
      by show d'.next ≤ d'.min + c.N; omega, hst, hwb, g.full, g.sorted, g.bound, hspl'.1, by rw [hspl'.2, hspl]; rfl, ?_, ?_⟩
    · intro ph h
      rw [c1] at h
      cases h
      exact ⟨Nat.mod_lt _ G.N0, lt_of_le_of_lt (Nat.mod_le _ _) (by omega)⟩
    · intro ph h l _ _ _
      rw [c1] at h
      cases h
      rw [c2]
      exact hlive _ (by omega) (by omega)

/-- Recovery. -/
theorem recover_rlcL {lo K : Nat} (hok : RlcOk c K P) (hB : Bounds c lo K P) (hP2 : 2 ≤ P) {L : Log} (g : OrderedLog c lo K L)
    {v : Dev} (hst : StoredR c P L v.file) (rb : Page) (sm : Nat → Nat × Nat) :
    ∃ d' evs ps fr t, recover c v rb sm = (d', 0) ∧ d'.dev = devRun c v evs ∧ RTab c lo K P ps fr t d' L ∧
      (∀ R : Log → Prop, R L → Trail c P R L v.file evs L d'.dev.file) ∧ Sim c lo K d'.min (clr d') L ∧
      (0 < d'.next → Sim c lo K d'.min d' L) ∧ d'.wbuf = t.getD (initPage c) ∧ ∀ ph q, Ev.write ph q ∉ evs := by
  obtain ⟨ps, S, fr, t, I, hp, ht⟩ := hst
  have h4 := hok.four
  have hP32 : P < 2 ^ 32 := hB.pages
  obtain ⟨d', evs, fr', g1, R⟩ := recoverRlc_ok hok.geo hok.cap127 hok.io hok.eraser hok.spline hok.N32 (by omega) hP2
    (d := Data.opening c v rb sm) I (by intro ph h; simp [Data.opening, Data.fresh] at h)
    ⟨rfl, rfl, by simp only [Data.opening, Data.fresh, hok.on, if_true]; omega, rfl⟩
  obtain ⟨s1, s2, s3⟩ := R.sim hok hB g hp ht (sm := sm) rfl
  refine ⟨d', evs, ps, fr', t, ?_, R.dev, ?_, fun Q hQ => R.trail Q L hQ hp ht, s2, s3, R.wbuf, R.erases⟩
  · unfold recover
    rw [if_pos hok.on, g1]
  · have hn := R.opened.next
    exact ⟨by rw [hn]; exact R.img, hp, ht, by rw [hn]; exact R.start, by rw [hn]; exact R.nxt, ⟨_, s1, s2⟩,
      by rw [hn]; exact R.opened.min, R.opened.avail, g.cap, by
        rw [R.wbuf]
        cases t with
        | none => exact init_within hok
        | some p => exact I.fits p rfl⟩

theorem recover_rlc {lo K : Nat} (hok : RlcOk c K P) (hB : Bounds c lo K P) (hP2 : 2 ≤ P) {L : Log} (g : OrderedLog c lo K L)
    {v : Dev} (hst : StoredR c P L v.file) (rb : Page) (sm : Nat → Nat × Nat) :
    ∃ d' evs ps fr t, recover c v rb sm = (d', 0) ∧ d'.dev = devRun c v evs ∧ RTab c lo K P ps fr t d' L ∧
      (∀ R : Log → Prop, R L → Trail c P R L v.file evs L d'.dev.file) ∧ Sim c lo K d'.min (clr d') L ∧
      (0 < d'.next → Sim c lo K d'.min d' L) := by
  obtain ⟨d', evs, ps, fr, t, h1, h2, h3, h4, h5, h6, -⟩ := recover_rlcL hok hB hP2 g hst rb sm
  exact ⟨d', evs, ps, fr, t, h1, h2, h3, h4, h5, h6⟩

end

end EDB
