import Verif.Proofs.RlcTrail

/-! Helper lemmas: inserts and flushes with record-level consistency. -/

namespace EDB

open Spec (Log KeepsPermanent)

/-- What `embedDBInit` checks or computes for a table with record-level consistency in spline mode, plus the assumptions
on the callbacks and the device. -/
structure RlcOk (c : Cfg) (K P : Nat) : Prop where
  B0 : 0 < c.B
  dvd : c.B ∣ c.N
  four : 4 * c.B ≤ c.N
  N32 : c.N < 2 ^ 32
  page : minOff + c.keySize * 2 + c.dataSize ≤ c.pageSize
  cap : 0 < c.maxRec
  /-- recovery reads the record count of a page as an `int8_t` -/
  cap127 : c.maxRec ≤ 127
  spl : 4 ≤ c.splSize
  layout : c.Layout
  cmp : CmpOk c.cmpKey K
  on : c.rlc = true
  spline : c.binSearch = false
  io : ∀ n, c.ioOk n = true
  eraser : RlcEraser c P
  /-- a spline rebuilt from page `a > 0` on needs a maximum error of at most 1, see `C17_false_start` -/
  start : c.maxErr ≤ 1 ∨ P + 3 * c.B ≤ c.N

/-- The same table without record-level consistency. -/
def noRlc (c : Cfg) : Cfg := { c with rlc := false }

theorem RlcOk.geo {c : Cfg} {K P : Nat} (h : RlcOk c K P) : RlcGeo c := ⟨h.B0, h.dvd, h.four⟩

theorem RlcOk.plain {c : Cfg} {K P : Nat} (h : RlcOk c K P) : (noRlc c).Ok K :=
  ⟨h.B0, h.dvd, by have := h.four; have := h.B0; show 2 * c.B ≤ c.N; omega, h.page, h.cap,
    by have := h.cap127; show c.maxRec ≤ 65535; omega, h.spl, ⟨h.layout.maxMin, h.layout.bmap, h.layout.updLen⟩, h.cmp, rfl, h.spline, h.io⟩

theorem Sim.noRlc {c : Cfg} {lo K a : Nat} {d : Data} {L : Log} (S : Sim c lo K a d L) : Sim (noRlc c) lo K a d L :=
  ⟨S.next, S.amin, S.minle, S.live, S.window, S.stored, S.buf, S.full, S.sorted, S.bound, S.spl, S.err, S.cacheN, S.cache⟩

theorem Sim.ofNoRlc {c : Cfg} {lo K a : Nat} {d : Data} {L : Log} (S : Sim (EDB.noRlc c) lo K a d L) : Sim c lo K a d L :=
  ⟨S.next, S.amin, S.minle, S.live, S.window, S.stored, S.buf, S.full, S.sorted, S.bound, S.spl, S.err, S.cacheN, S.cache⟩

/-- Where the temporary area starts with `n` permanent pages. -/
def areaOf (B n : Nat) : Nat := (n / B + 1) * B

theorem areaOf_dvd (B n : Nat) : B ∣ areaOf B n := Dvd.intro_left _ rfl

theorem areaOf_bounds {B : Nat} (hB : 0 < B) (n : Nat) : n < areaOf B n ∧ areaOf B n ≤ n + B := by
  have h1 := Nat.div_add_mod n B
  have h2 := Nat.mod_lt n hB
  have e : areaOf B n = B * (n / B) + B := by unfold areaOf; ring
  omega

theorem areaOf_unique {B n S : Nat} (hB : 0 < B) (hd : B ∣ S) (h1 : n < S) (h2 : S ≤ n + B) : S = areaOf B n := by
  obtain ⟨j, rfl⟩ := hd
  have := areaOf_bounds hB n
  obtain ⟨i, hi⟩ := areaOf_dvd B n
  rw [hi] at this ⊢
  have h3 : B * j < B * (i + 1) := by rw [Nat.mul_add]; omega
  have h4 : B * i < B * (j + 1) := by rw [Nat.mul_add]; omega
  have := Nat.lt_of_mul_lt_mul_left h3
  have := Nat.lt_of_mul_lt_mul_left h4
  rw [show i = j by omega]

theorem rlcDropped_area (N B n : Nat) : Spec.rlcDropped N B n = areaOf B n + 2 * B - N := by
  unfold Spec.rlcDropped areaOf
  rw [show (n / B + 3) * B = (n / B + 1) * B + 2 * B by ring]

/-! ### Building trails -/

section
variable {c : Cfg} {P S fr : Nat} {ps : List Page} {t : Option Page} {file : Nat → Option Page} {L : Log} {R : Log → Prop}

theorem RImg.storedR (I : RImg c P ps S fr t file) (hp : ps.map (recs c) = L.pages)
    (hb : (t.map (recs c)).getD [] = L.buf) : StoredR c P L file := ⟨ps, S, fr, t, I, hp, hb⟩

theorem Trail.one {L' : Log} {e : Ev} (h : R L) (s : StoredR c P L file)
    (k : ∀ m, KeepsPermanent c.N c.B L'.pages.length m → KeepsPermanent c.N c.B L.pages.length (e :: m))
    (w : ∀ ph q, e = .write ph q → ph < c.N ∧ pageId q < P ∧ Page.within q c.pageSize)
    (h' : R L') (s' : StoredR c P L' (Spec.applyEv c.eraseFx file e)) :
    Trail c P R L file [e] L' (Spec.applyEv c.eraseFx file e) := .cons h s k w (.nil h' s')

/-- Erasing a block that holds nothing of value. -/
theorem trail_erase (G : RlcGeo c) (hE : RlcEraser c P) (I : RImg c P ps S fr t file) (hp : ps.map (recs c) = L.pages)
    (hb : (t.map (recs c)).getD [] = L.buf) (hR : R L) {x : Nat} (hx : c.B ∣ x)
    (h1 : ps.length ≤ x) (h2 : x < S + 2 * c.B) (hdead : NoErase c ∨ ∀ a, ps.length ≤ a → a < x → c.B ∣ a → Dead c file a)
    (ht : t ≠ none → S + fr ≤ x ∨ x + c.B < S + fr) :
    Trail c P R L file [.erase (x % c.N) (x % c.N + c.B)] L
      (Spec.applyEv c.eraseFx file (.erase (x % c.N) (x % c.N + c.B))) := by
  have I' := (I.erase G hE hx h1 h2 hdead ht).1
  have hl : L.pages.length = ps.length := by rw [← hp, List.length_map]
  have hx2 : x + c.B ≤ S + 2 * c.B := by
    obtain ⟨i, hi⟩ := hx
    obtain ⟨j, hj⟩ := I.dvd
    have e : S + 2 * c.B = c.B * (j + 2) := by rw [hj]; ring
    rw [e] at h2 ⊢
    rw [hi] at h2 ⊢
    have := Nat.lt_of_mul_lt_mul_left h2
    have := Nat.mul_le_mul_left c.B this
    rw [Nat.mul_succ] at this
    exact this
  refine Trail.one hR (I.storedR hp hb) ?_ (fun ph q h => by cases h) hR (I'.storedR hp hb)
  intro m hm
  rw [hl] at hm ⊢
  exact keeps_erase G I hx h1 hx2 hm

end

/-! ### The temporary page -/

section
variable {c : Cfg} {K P S fr : Nat} {ps : List Page} {t : Option Page} {L : Log} {R : Log → Prop} {d : Data}

theorem rlcLoc_eq (G : RlcGeo c) (hs : d.rlcStart = S % c.N) (hn : d.rlcNext % c.N = (S + fr) % c.N) (hfr : fr ≤ 2 * c.B) :
    rlcLoc c d = (S + nextOff c fr) % c.N := by
  have hN := G.N0
  have h4 := G.four
  have hB := G.B0
  have hlt := Nat.mod_lt S hN
  unfold rlcLoc
  simp only
  rw [hn, hs]
  have key : (S + fr) % c.N + (if (S + fr) % c.N < S % c.N then c.N else 0) - S % c.N = fr := by
    rw [Nat.add_mod, Nat.mod_eq_of_lt (show fr < c.N by omega)]
    rcases Nat.lt_or_ge (S % c.N + fr) c.N with h | h
    · rw [Nat.mod_eq_of_lt h, if_neg (by omega)]; omega
    · rw [Nat.mod_eq_sub_mod h, Nat.mod_eq_of_lt (show S % c.N + fr - c.N < c.N by omega), if_pos (by omega)]; omega
  rw [key]
  unfold nextOff
  by_cases h : fr = 2 * c.B
  · rw [if_pos (by omega), if_pos h, Nat.add_zero]
  · rw [if_neg (by omega), if_neg h]

/-- The events of `writeTemporaryPage`. -/
def tempEvs (c : Cfg) (S fr : Nat) (p : Page) : List Ev :=
  (if nextOff c fr % c.B = 1 then
    [.erase ((S + (if nextOff c fr = 1 then c.B else 0)) % c.N) ((S + (if nextOff c fr = 1 then c.B else 0)) % c.N + c.B)] else []) ++
  [.write ((S + nextOff c fr) % c.N) p]

theorem tempEvs_write {p q : Page} {ph : Nat} (h : Ev.write ph q ∈ tempEvs c S fr p) : q = p := by
  unfold tempEvs at h
  rcases List.mem_append.mp h with h | h
  · by_cases hc : nextOff c fr % c.B = 1
    · rw [if_pos hc] at h
      simp at h
    · rw [if_neg hc] at h
      simp at h
  · cases List.mem_singleton.mp h
    rfl

theorem writeTemp_eq (G : RlcGeo c) (hio : ∀ n, c.ioOk n = true) (hS : c.B ∣ S) (hs : d.rlcStart = S % c.N)
    (hn : d.rlcNext % c.N = (S + fr) % c.N) (hfr : fr ≤ 2 * c.B) :
    writeTemp c d = ({ d with wbuf := outPage d, dev := devRun c d.dev (tempEvs c S fr (outPage d)),
                              rlcNext := (S + nextOff c fr) % c.N + 1 }, 0) := by
  have hN := G.N0
  have h4 := G.four
  have hB := G.B0
  have hi2 : nextOff c fr < 2 * c.B := by unfold nextOff; split_ifs <;> omega
  unfold writeTemp
  simp only
  rw [show rlcLoc c { d with wbuf := wr d.wbuf 0 (leBytes 4 d.next) } = (S + nextOff c fr) % c.N from
    rlcLoc_eq (d := { d with wbuf := wr d.wbuf 0 (leBytes 4 d.next) }) G hs hn hfr]
  unfold tempEvs
  generalize nextOff c fr = i at *
  have hmod : (S + i) % c.N % c.B = i % c.B := by
    rw [Nat.mod_mod_of_dvd _ G.dvd, Nat.add_mod, Nat.mod_eq_zero_of_dvd hS, Nat.zero_add, Nat.mod_mod]
  rw [hmod]
  by_cases h1 : i % c.B = 1
  · rw [if_pos h1, if_pos h1]
    have hB2 : 2 ≤ c.B := by
      by_contra h
      have : c.B = 1 := by omega
      rw [this, Nat.mod_one] at h1
      omega
    have hend := block_end G.dvd hN (Nat.mod_eq_zero_of_dvd hS)
    have hes : (if (S + i) % c.N = d.rlcStart + 1 then (d.rlcStart + c.B) % c.N else d.rlcStart) =
        (S + (if i = 1 then c.B else 0)) % c.N := by
      rw [hs]
      have e1 : (S + 1) % c.N = S % c.N + 1 := by
        rw [Nat.add_mod, Nat.mod_eq_of_lt (show 1 < c.N by omega), Nat.mod_eq_of_lt (show S % c.N + 1 < c.N by omega)]
      by_cases h : i = 1
      · rw [if_pos (by rw [h]; exact e1), if_pos h, Nat.add_mod, Nat.mod_mod, ← Nat.add_mod]
      · rw [if_neg, if_neg h, Nat.add_zero]
        intro h'
        rw [← e1] at h'
        have := mod_inj_window (by omega) (by omega) h'
        omega
    rw [hes, erase_run hio, write_run hio, devRun_append]
    rfl
  · rw [if_neg h1, if_neg h1, write_run hio]
    rfl

theorem outPage_id (hP : d.next < 2 ^ 32) : pageId (outPage d) = d.next := by
  unfold outPage; rw [pageId_wr, Nat.mod_eq_of_lt hP]

theorem init_within (hok : RlcOk c K P) : Page.within (initPage c) c.pageSize :=
  within_init (c := noRlc c) hok.plain

theorem outPage_within (hok : RlcOk c K P) (h : Page.within d.wbuf c.pageSize) : Page.within (outPage d) c.pageSize := by
  have h1 : c.hdr ≤ c.pageSize := hdr_lt hok.cap
  have h2 := hdr_ge c
  exact within_wr h (by rw [leBytes_length]; omega)

theorem outPage_recs (c : Cfg) (d : Data) : recs c (outPage d) = recs c d.wbuf := by
  unfold outPage; exact (sameRecs_id c d.wbuf d.next).recs

theorem outPage_count (c : Cfg) (d : Data) : pageCount (outPage d) = pageCount d.wbuf := by
  rw [← recs_length c, outPage_recs, recs_length]

/-- Writing the temporary page is safe at every moment. -/
theorem writeTemp_trail (G : RlcGeo c) (hE : RlcEraser c P) {file : Nat → Option Page} (I : RImg c P ps S fr t file)
    (hp : ps.map (recs c) = L.pages) (hb : (t.map (recs c)).getD [] = L.buf) (hR : R L) (hlt : ps.length < S) {p : Page}
    (hid : pageId p = ps.length) (hc : 0 < pageCount p ∧ pageCount p ≤ c.maxRec)
    (hmore : ∀ p0, t = some p0 → pageCount p0 < pageCount p) (hw : Page.within p c.pageSize) (hR' : R ⟨L.pages, recs c p⟩) :
    ∃ file', RImg c P ps S (nextOff c fr + 1) (some p) file' ∧
      Trail c P R L file (tempEvs c S fr p) ⟨L.pages, recs c p⟩ file' := by
  have hB := G.B0
  have hfr2 := I.fr2
  have hl : L.pages.length = ps.length := by rw [← hp, List.length_map]
  have hoff : nextOff c fr < 2 * c.B := by unfold nextOff; split_ifs <;> omega
  have hwrite : ∀ f, RImg c P ps S fr t f →
      ∃ file', RImg c P ps S (nextOff c fr + 1) (some p) file' ∧
        Trail c P R L f [.write ((S + nextOff c fr) % c.N) p] ⟨L.pages, recs c p⟩ file' := by
    intro f If
    have I2 := If.tmp G hid hc hlt hmore hw
    refine ⟨_, I2, Trail.one hR (If.storedR hp hb) ?_ (fun ph q h => ?_) hR' (I2.storedR hp rfl)⟩
    swap
    · cases h
      exact ⟨Nat.mod_lt _ G.N0, by rw [hid]; exact If.lt, hw⟩
    intro m hm
    rw [hl]
    exact keeps_tmp G If hoff hlt hid (by rw [← hl]; exact hm)
  unfold tempEvs
  by_cases h1 : nextOff c fr % c.B = 1
  · rw [if_pos h1]
    have hB2 : 2 ≤ c.B := by
      by_contra h
      have : c.B = 1 := by omega
      rw [this, Nat.mod_one] at h1
      omega
    have hcases : nextOff c fr = 1 ∨ nextOff c fr = c.B + 1 := by
      rcases Nat.lt_or_ge (nextOff c fr) c.B with h | h
      · rw [Nat.mod_eq_of_lt h] at h1; exact Or.inl h1
      · rw [Nat.mod_eq_sub_mod h, Nat.mod_eq_of_lt (show nextOff c fr - c.B < c.B by omega)] at h1
        right; omega
    have hfr : fr = nextOff c fr := by
      by_cases h : fr = 2 * c.B
      · have : nextOff c fr = 0 := by unfold nextOff; rw [if_pos h]
        omega
      · unfold nextOff; rw [if_neg h]
    have hdd : c.B ∣ S + (if nextOff c fr = 1 then c.B else 0) := by
      split_ifs
      · exact (Nat.dvd_add_right I.dvd).mpr (dvd_refl _)
      · exact I.dvd
    have hcond : ∀ x, x = S + (if nextOff c fr = 1 then c.B else 0) → ps.length ≤ x ∧ x < S + 2 * c.B ∧
        (NoErase c ∨ ∀ a, ps.length ≤ a → a < x → c.B ∣ a → Dead c file a) ∧ (t ≠ none → S + fr ≤ x ∨ x + c.B < S + fr) := by
      intro x hx
      refine ⟨by omega, by split_ifs at hx <;> omega, Or.inr ?_, ?_⟩
      · intro a a1 a2 a3
        refine I.dead a a1 ?_ a3
        split_ifs at hx with h
        · -- a block start below S + B is at most S
          obtain ⟨i, hi⟩ := a3
          obtain ⟨j, hj⟩ := I.dvd
          rw [hx, hi, hj, show c.B * j + c.B = c.B * (j + 1) by ring] at a2
          have := Nat.lt_of_mul_lt_mul_left a2
          have := Nat.mul_le_mul_left c.B (show i ≤ j by omega)
          omega
        · omega
      · intro _
        split_ifs at hx <;> omega
    obtain ⟨q1, q2, q3, q4⟩ := hcond _ rfl
    have I1 := (I.erase G hE hdd q1 q2 q3 q4).1
    have T1 := trail_erase G hE I hp hb hR hdd q1 q2 q3 q4
    obtain ⟨f', I2, T2⟩ := hwrite _ I1
    exact ⟨f', I2, T1.append T2⟩
  · rw [if_neg h1, List.nil_append]
    exact hwrite _ I

/-! ### Moving the temporary area -/

/-- The events of `shiftRecordLevelConsistencyBlocks`. -/
def shiftEvs (c : Cfg) (S : Nat) : List Ev :=
  [.erase (S % c.N) (S % c.N + c.B), .erase ((S + c.B) % c.N) ((S + c.B) % c.N + c.B)] ++
  (if c.N ≤ S + 2 * c.B then [] else [.erase ((S + 2 * c.B) % c.N) ((S + 2 * c.B) % c.N + c.B)])

theorem shiftEvs_write {q : Page} {ph : Nat} : Ev.write ph q ∉ shiftEvs c S := by
  unfold shiftEvs
  split_ifs <;> simp

theorem eraseBlocks_two (hio : ∀ n, c.ioOk n = true) (v : Dev) (S : Nat) :
    eraseBlocks c v (S % c.N) 2 = (devRun c v [.erase (S % c.N) (S % c.N + c.B),
      .erase ((S + c.B) % c.N) ((S + c.B) % c.N + c.B)], true) := by
  simp only [eraseBlocks, erase_run hio, if_true, devRun_append, Nat.mod_add_mod]
  rfl

theorem eraseBlocks_three (hio : ∀ n, c.ioOk n = true) (v : Dev) (S : Nat) :
    eraseBlocks c v (S % c.N) 3 = (devRun c v [.erase (S % c.N) (S % c.N + c.B),
      .erase ((S + c.B) % c.N) ((S + c.B) % c.N + c.B), .erase ((S + 2 * c.B) % c.N) ((S + 2 * c.B) % c.N + c.B)], true) := by
  simp only [eraseBlocks, erase_run hio, if_true, devRun_append, Nat.mod_add_mod,
    show S + c.B + c.B = S + 2 * c.B by ring]
  rfl

/-- The state after the area was moved. -/
def shifted (c : Cfg) (S : Nat) (d : Data) : Data :=
  { d with dev := devRun c d.dev (shiftEvs c S)
           avail := if c.N ≤ S + 2 * c.B then d.avail + c.B else d.avail
           min := if c.N ≤ S + 2 * c.B then d.min + c.B else d.min
           spl := if c.N ≤ S + 2 * c.B ∧ c.noClean = false then d.spl.clean (d.min + c.B) else d.spl
           rlcStart := (S + c.B) % c.N
           rlcNext := (S + c.B) % c.N }

theorem shiftRlc_eq (G : RlcGeo c) (hio : ∀ n, c.ioOk n = true) (hbs : c.binSearch = false) (hs : d.rlcStart = S % c.N)
    (hm : d.min = S + 2 * c.B - c.N) : shiftRlc c d = .ok (shifted c S d) := by
  have hN := G.N0
  have hB := G.B0
  have hw : (d.min % c.N = (d.rlcStart + c.B * 2) % c.N) ↔ c.N ≤ S + 2 * c.B := by
    rw [hs, hm, Nat.mod_add_mod, Nat.mul_comm c.B 2]
    constructor
    · intro h
      by_contra hc
      rw [show S + 2 * c.B - c.N = 0 by omega, Nat.zero_mod, Nat.mod_eq_of_lt (show S + 2 * c.B < c.N by omega)] at h
      omega
    · intro h
      exact (Nat.mod_eq_sub_mod h).symm
  unfold shiftRlc
  simp only
  by_cases h : c.N ≤ S + 2 * c.B
  · rw [if_pos (hw.mpr h), hs, eraseBlocks_two hio]
    simp only [if_true, if_pos (hs ▸ hw.mpr h)]
    unfold cleanStep shifted shiftEvs
    by_cases hc : c.noClean = true
    · simp only [hc, if_true, Res.ok_bind]
      simp [h, hs]
    · have hc' : c.noClean = false := by simpa using hc
      simp only [hc', hbs, if_false, Bool.false_eq_true, Res.ok_bind]
      simp [h, hs]
  · rw [if_neg (fun h' => h (hw.mp h')), hs, eraseBlocks_three hio]
    simp only [if_true, if_neg (fun h' => h (hw.mp (hs ▸ h')))]
    unfold shifted shiftEvs
    simp [h, hs]

/-- Moving the temporary area is safe at every moment. -/
theorem shift_trail (G : RlcGeo c) (hE : RlcEraser c P) {file : Nat → Option Page} (I : RImg c P ps S fr t file)
    (hS : S = ps.length) (hp : ps.map (recs c) = L.pages) (hb : L.buf = []) (hR : R L) :
    ∃ file', RImg c P ps (S + c.B) 0 none file' ∧ Trail c P R L file (shiftEvs c S) L file' := by
  have hB := G.B0
  have h4 := G.four
  have I1 := I.shift G hS
  have hb' : ((none : Option Page).map (recs c)).getD [] = L.buf := by rw [hb]; rfl
  obtain ⟨p1, p2⟩ := I.pre hS
  have d0 : NoErase c ∨ ∀ a, ps.length ≤ a → a < S → c.B ∣ a → Dead c file a :=
    Or.inr fun a a1 a2 _ => absurd a1 (by omega)
  have hdS : c.B ∣ S + c.B := (Nat.dvd_add_right I.dvd).mpr (dvd_refl _)
  have hdS2 : c.B ∣ S + 2 * c.B := (Nat.dvd_add_right I.dvd).mpr (Dvd.intro_left _ rfl)
  have hone : ∀ a, ps.length ≤ a → a < S + c.B → c.B ∣ a → a = S := by
    intro a a1 a2 a3
    obtain ⟨i, hi⟩ := a3
    obtain ⟨j, hj⟩ := I.dvd
    rw [← hS, hi, hj] at a1
    rw [hi, hj, show c.B * j + c.B = c.B * (j + 1) by ring] at a2
    have b1 := Nat.le_of_mul_le_mul_left a1 hB
    have b2 := Nat.lt_of_mul_lt_mul_left a2
    rw [hi, hj, show i = j by omega]
  have T1 := trail_erase G hE I1 hp hb' hR I.dvd (by omega) (by omega) d0 (by simp)
  obtain ⟨I2, D2⟩ := I1.erase G hE I.dvd (by omega) (by omega) d0 (by simp)
  generalize Spec.applyEv c.eraseFx file (.erase (S % c.N) (S % c.N + c.B)) = f2 at *
  have d1 : NoErase c ∨ ∀ a, ps.length ≤ a → a < S + c.B → c.B ∣ a → Dead c f2 a := by
    refine D2.imp_right fun h a a1 a2 a3 => ?_
    rw [hone a a1 a2 a3]; exact h
  have T2 := trail_erase G hE I2 hp hb' hR hdS (by omega) (by omega) d1 (by simp)
  obtain ⟨I3, D3⟩ := I2.erase G hE hdS (by omega) (by omega) d1 (by simp)
  generalize Spec.applyEv c.eraseFx f2 (.erase ((S + c.B) % c.N) ((S + c.B) % c.N + c.B)) = f3 at *
  unfold shiftEvs
  by_cases h : c.N ≤ S + 2 * c.B
  · rw [if_pos h, List.append_nil]
    exact ⟨f3, I3, T1.append T2⟩
  · rw [if_neg h]
    have d2 : NoErase c ∨ ∀ a, ps.length ≤ a → a < S + 2 * c.B → c.B ∣ a → Dead c f3 a := by
      refine Or.inr ?_
      rintro a _ a2 _ q _ ⟨h5, _⟩
      omega
    have T3 := trail_erase G hE I3 hp hb' hR hdS2 (by omega) (by omega) d2 (by simp)
    have I4 := (I3.erase G hE hdS2 (by omega) (by omega) d2 (by simp)).1
    exact ⟨_, I4, (T1.append T2).append T3⟩

end

/-! ### The state of a table in use -/

/-- State `d` holds the log `L` in memory and storage. -/
structure RTab (c : Cfg) (lo K P : Nat) (ps : List Page) (fr : Nat) (t : Option Page) (d : Data) (L : Log) : Prop where
  img : RImg c P ps (areaOf c.B d.next) fr t d.dev.file
  pages : ps.map (recs c) = L.pages
  tmp : (t.map (recs c)).getD [] = L.buf
  start : d.rlcStart = areaOf c.B d.next % c.N
  nxt : d.rlcNext % c.N = (areaOf c.B d.next + fr) % c.N
  sim : ∃ a, (a = 0 ∨ c.maxErr ≤ 1) ∧ Sim c lo K a (clr d) L
  min : d.min = areaOf c.B d.next + 2 * c.B - c.N
  avail : d.next + d.avail + 2 * c.B = d.min + c.N
  cap : Capped c.maxRec L
  fits : Page.within d.wbuf c.pageSize

section
variable {c : Cfg} {lo K P fr : Nat} {ps : List Page} {t : Option Page} {L : Log} {d d' : Data}

theorem RTab.len (T : RTab c lo K P ps fr t d L) : ps.length = d.next := by
  obtain ⟨a, _, S⟩ := T.sim
  have := S.next
  rw [← T.pages, List.length_map] at this
  exact this.symm

theorem RTab.congr (T : RTab c lo K P ps fr t d L) (E : SameButCache d d') : RTab c lo K P ps fr t d' L where
  img := by rw [E.next, E.dev]; exact T.img
  pages := T.pages
  tmp := T.tmp
  start := by rw [E.next, E.rlcStart]; exact T.start
  nxt := by rw [E.next, E.rlcNext]; exact T.nxt
  sim := by obtain ⟨a, h, S⟩ := T.sim; exact ⟨a, h, S.clr_congr E⟩
  min := by rw [E.next, E.min]; exact T.min
  avail := by rw [E.next, E.avail, E.min]; exact T.avail
  cap := T.cap
  fits := by rw [E.wbuf]; exact T.fits

theorem RTab.buf (T : RTab c lo K P ps fr t d L) : recs c d.wbuf = L.buf := by
  obtain ⟨a, _, S⟩ := T.sim
  exact S.buf

theorem RTab.count (T : RTab c lo K P ps fr t d L) : pageCount d.wbuf = L.buf.length := by
  rw [← T.buf, recs_length]

/-- Simulation of a log carried over to another state with the same pages, judged by the storage image. -/
theorem Sim.onImg (G : RlcGeo c) {a S : Nat} (h0 : Sim c lo K a (EDB.clr d) L) (I : RImg c P ps S fr t d'.dev.file)
    (hP : P ≤ 2 ^ 32) (hp : ps.map (recs c) = L.pages) (hn : d'.next = d.next) (hm : d'.min = S + 2 * c.B - c.N) (hle : d.min ≤ d'.min)
    (hw : recs c d'.wbuf = recs c d.wbuf) (hs : Spline.Inv d'.spl (firstKey L) a d.next) (he : d'.spl.maxErr = c.maxErr) :
    Sim c lo K a (EDB.clr d') L := by
  have hlen : ps.length = d.next := by
    have h2 : d.next = L.pages.length := h0.next
    rw [← hp, List.length_map] at h2
    exact h2.symm
  have hlo := I.lo
  have hhi := I.hi
  have h4 := G.four
  have hB := G.B0
  refine ⟨hn.trans h0.next, le_trans h0.amin hle, ?_, ?_, ?_, ?_, hw.trans h0.buf, h0.full, h0.sorted, h0.bound, ?_, he, ?_, ?_⟩
  · show d'.min ≤ d'.next; omega
  · intro h; show d'.min < d'.next; have : 0 < d'.next := h; omega
  · show d'.next ≤ d'.min + c.N; omega
  · intro l h1 h2
    have h1' : d'.min ≤ l := h1
    have h2' : l < ps.length := by rw [← List.length_map (f := recs c), hp]; exact h2
    refine ⟨ps[l], I.live l h2' (by omega), ?_, ?_⟩
    · simp only [← hp, List.getElem_map]
    · rw [I.ids l h2', Nat.mod_eq_of_lt (by have := I.lt; omega)]
  · show Spline.Inv d'.spl (firstKey L) a d'.next
    rw [hn]; exact hs
  · intro ph h; simp [EDB.clr] at h
  · intro ph h; simp [EDB.clr] at h

/-! ### Completing a page -/

theorem sealed_run (ha : d.avail ≠ 0) : sealed c d =
    { d with dev := devRun c d.dev [.write (d.next % c.N) (outPage d)], wbuf := initPage c, next := d.next + 1,
             avail := d.avail - 1, spl := d.spl.add (pageMinKey c (outPage d)) d.next } := by
  unfold sealed outData outDev outSpl outMin devRun
  simp only [ha, if_false, false_and, List.append_nil]
  rfl

theorem RTab.avail_pos (G : RlcGeo c) (T : RTab c lo K P ps fr t d L) : d.avail ≠ 0 := by
  have h1 := T.avail
  have h2 := T.min
  have h3 := areaOf_bounds G.B0 d.next
  have h4 := G.four
  have h5 := G.B0
  omega

theorem RTab.temp_of_ne (T : RTab c lo K P ps fr t d L) (hne : L.buf ≠ []) : ∃ p, t = some p ∧ recs c p = L.buf ∧ 0 < fr := by
  have h := T.tmp
  cases ht : t with
  | none => rw [ht] at h; exact absurd h.symm hne
  | some p => exact ⟨p, rfl, by rw [ht] at h; exact h, (T.img.temp p ht).1⟩

/-- Completing the page in the write buffer. -/
theorem RTab.seal (hok : RlcOk c K P) (hB : Bounds c lo K P) (T : RTab c lo K P ps fr t d L) (hne : L.buf ≠ [])
    (hP : d.next + 1 < P) :
    RImg c P (ps ++ [outPage d]) (areaOf c.B d.next) fr none (sealed c d).dev.file ∧
    (ps ++ [outPage d]).map (recs c) = L.pages ++ [L.buf] ∧
    (∃ a, (a = 0 ∨ c.maxErr ≤ 1) ∧ Sim c lo K a (clr (sealed c d)) ⟨L.pages ++ [L.buf], []⟩) ∧
    (∀ R : Log → Prop, R L → R ⟨L.pages ++ [L.buf], []⟩ →
      Trail c P R L d.dev.file [.write (d.next % c.N) (outPage d)] ⟨L.pages ++ [L.buf], []⟩ (sealed c d).dev.file) := by
  have G := hok.geo
  have ha := T.avail_pos G
  have hlen := T.len
  have hb := areaOf_bounds hok.B0 d.next
  obtain ⟨p, ht, hp, hfr⟩ := T.temp_of_ne hne
  have hid : pageId (outPage d) = ps.length := by rw [hlen]; exact outPage_id (by have := hB.pages; omega)
  have hcnt : 0 < pageCount (outPage d) ∧ pageCount (outPage d) ≤ c.maxRec := by
    rw [outPage_count c, T.count]
    exact ⟨List.length_pos_iff.mpr hne, T.cap.2⟩
  have I1 := T.img.perm G hid hcnt (by omega) hfr (by omega)
  rw [hlen] at I1
  have hf : (sealed c d).dev.file = Spec.applyEv c.eraseFx d.dev.file (.write (d.next % c.N) (outPage d)) := by
    rw [sealed_run ha]; rfl
  have hmap : (ps ++ [outPage d]).map (recs c) = L.pages ++ [L.buf] := by
    rw [List.map_append, T.pages, List.map_singleton, outPage_recs, T.buf]
  rw [hf]
  refine ⟨I1, hmap, ?_, ?_⟩
  · obtain ⟨a, hst, S⟩ := T.sim
    refine ⟨a, hst, ?_⟩
    -- the plain table with the reserved pages counted as available
    have S0 : Sim (noRlc c) lo K a { clr d with avail := d.avail + 2 * c.B } L :=
      ⟨S.next, S.amin, S.minle, S.live, S.window, S.stored, S.buf, S.full, S.sorted, S.bound, S.spl, S.err, S.cacheN, S.cache⟩
    have hd1 : c.B ∣ d.min := by
      rw [T.min]
      exact Nat.dvd_sub ((Nat.dvd_add_right (areaOf_dvd _ _)).mpr (Dvd.intro_left _ rfl)) hok.dvd
    have R0 : Room (noRlc c) { clr d with avail := d.avail + 2 * c.B } := by
      refine ⟨hd1, ?_⟩
      have := T.avail
      show d.next + (d.avail + 2 * c.B) = d.min + c.N
      omega
    have S1 := S0.sealed hok.plain (P := P) ⟨hB.prod, hB.pages, hB.key⟩ hst R0 (show d.next + 1 ≤ P by omega) hne (by simp [clr])
    have e1 := sealed_run (c := noRlc c) (d := { clr d with avail := d.avail + 2 * c.B }) (by show d.avail + 2 * c.B ≠ 0; omega)
    rw [e1] at S1
    rw [sealed_run ha]
    exact ⟨S1.next, S1.amin, S1.minle, S1.live, S1.window, S1.stored, S1.buf, S1.full, S1.sorted, S1.bound, S1.spl, S1.err, S1.cacheN, S1.cache⟩
  · intro R h1 h2
    refine Trail.one h1 (T.img.storedR T.pages T.tmp) ?_ (fun ph q h => ?_) h2 (I1.storedR hmap rfl)
    swap
    · cases h
      exact ⟨Nat.mod_lt _ G.N0, by rw [hid]; omega, outPage_within hok T.fits⟩
    intro m hm
    have hl : L.pages.length = d.next := by rw [← T.pages, List.length_map, hlen]
    rw [hl]
    refine keeps_perm (by rw [hid, hlen]) ?_
    rw [← hl]
    simpa using hm

/-- The end of an insert: the temporary page. -/
theorem temp_step (hok : RlcOk c K P) (hB : Bounds c lo K P) {a : Nat} {r : Rec} (hst : a = 0 ∨ c.maxErr ≤ 1)
    (I : RImg c P ps (areaOf c.B d.next) fr t d.dev.file) (hp : ps.map (recs c) = L.pages)
    (htmp : (t.map (recs c)).getD [] = L.buf) (hs : d.rlcStart = areaOf c.B d.next % c.N)
    (hn : d.rlcNext % c.N = (areaOf c.B d.next + fr) % c.N) (S : Sim c lo K a (clr d) ⟨L.pages, L.buf ++ [r]⟩)
    (hm : d.min = areaOf c.B d.next + 2 * c.B - c.N) (hav : d.next + d.avail + 2 * c.B = d.min + c.N)
    (hcap : Capped c.maxRec ⟨L.pages, L.buf ++ [r]⟩) (hw : Page.within d.wbuf c.pageSize) :
    ∃ d' evs fr' p, writeTemp c d = (d', 0) ∧ d'.dev = devRun c d.dev evs ∧
      RTab c lo K P ps fr' (some p) d' ⟨L.pages, L.buf ++ [r]⟩ ∧ d'.next = d.next ∧
      (∀ R : Log → Prop, R L → R ⟨L.pages, L.buf ++ [r]⟩ →
        Trail c P R L d.dev.file evs ⟨L.pages, L.buf ++ [r]⟩ d'.dev.file) ∧
      d'.wbuf = outPage d ∧ ∀ ph q, Ev.write ph q ∈ evs → q = outPage d := by
  have G := hok.geo
  have hb := areaOf_bounds hok.B0 d.next
  have hlen : ps.length = d.next := by
    have h2 : d.next = L.pages.length := S.next
    rw [← hp, List.length_map] at h2
    exact h2.symm
  have hN := G.N0
  have hbuf : recs c d.wbuf = L.buf ++ [r] := S.buf
  have hrec : recs c (outPage d) = L.buf ++ [r] := by rw [outPage_recs, hbuf]
  have hcount : pageCount (outPage d) = L.buf.length + 1 := by rw [← recs_length c, hrec]; simp
  have hid : pageId (outPage d) = ps.length := by
    rw [hlen]; exact outPage_id (by have := hB.pages; have := I.lt; omega)
  have hc2 : (L.buf ++ [r]).length ≤ c.maxRec := hcap.2
  have hcnt : 0 < pageCount (outPage d) ∧ pageCount (outPage d) ≤ c.maxRec := by
    rw [List.length_append, List.length_singleton] at hc2
    omega
  have hmore : ∀ p0, t = some p0 → pageCount p0 < pageCount (outPage d) := by
    intro p0 h0
    rw [h0] at htmp
    have : recs c p0 = L.buf := htmp
    rw [← recs_length c p0, this, hcount]
    omega
  have hT := fun (R : Log → Prop) (h1 : R L) (h2 : R ⟨L.pages, L.buf ++ [r]⟩) =>
    writeTemp_trail (R := R) G hok.eraser I hp htmp h1 (by omega) hid hcnt hmore (outPage_within hok hw) (by rw [hrec]; exact h2)
  obtain ⟨f', I', T0⟩ := hT (fun _ => True) trivial trivial
  have hf : (devRun c d.dev (tempEvs c (areaOf c.B d.next) fr (outPage d))).file = f' := T0.file.symm
  refine ⟨_, tempEvs c (areaOf c.B d.next) fr (outPage d), nextOff c fr + 1, outPage d,
    writeTemp_eq G hok.io (areaOf_dvd _ _) hs hn I.fr2, rfl, ?_, rfl, ?_, rfl, fun ph q h => tempEvs_write h⟩
  · refine ⟨by rw [← hf] at I'; exact I', hp, hrec, hs, ?_, ⟨a, hst, ?_⟩, hm, hav, hcap, outPage_within hok hw⟩
    · show ((areaOf c.B d.next + nextOff c fr) % c.N + 1) % c.N = _
      rw [Nat.mod_add_mod, Nat.add_assoc]
    · exact S.onImg (d := d) G (by rw [← hf] at I'; exact I') (by have := hB.pages; omega) hp rfl hm (le_refl _)
        (outPage_recs c d) S.spl S.err
  · intro R h1 h2
    obtain ⟨f2, _, T2⟩ := hT R h1 h2
    have : f2 = f' := by rw [T2.file, T0.file]
    rw [hrec] at T2
    show Trail c P R L d.dev.file _ _ (devRun c d.dev (tempEvs c (areaOf c.B d.next) fr (outPage d))).file
    rw [hf, ← this]
    exact T2

/-! ### `embedDBPut` and `embedDBFlush` -/

theorem append_state_clr (d : Data) (p : Page) : clr { d with wbuf := p } = { clr d with wbuf := p } := rfl

/-- The pages an insert writes: the write buffer before or after it; and what happens to the buffer. -/
structure PutPages (c : Cfg) (d d' : Data) (evs : List Ev) (r : Int) (key : Nat) (data : List Byte) (loc : Nat) : Prop where
  wrote : ∀ ph q, Ev.write ph q ∈ evs → SameRecs c q d.wbuf ∨ SameRecs c q d'.wbuf
  kept : r ≠ 0 → d'.wbuf = d.wbuf
  added : r = 0 → ∃ p, SameRecs c d'.wbuf (appendRec c p key data loc) ∧ ((p = d.wbuf ∧ pageCount p < c.maxRec) ∨ p = initPage c)

/-- `embedDBPut` of a key larger than all stored ones, with any location of variable data: accepted or refused, and safe at
every moment. -/
theorem RTab.putL (hok : RlcOk c K P) (hB : Bounds c lo K P) (T : RTab c lo K P ps fr t d L) {key : Nat} {data : List Byte}
    (loc : Nat) (hlo : lo ≤ key) (hk : key < K) (hd : data.length = c.dataSize) (hgt : ∀ r ∈ L.all, r.1 < key) (hP : d.next + 1 < P) :
    ∃ d' r w evs, putD c d key data loc = .ok (d', r, w) ∧ d'.dev = devRun c d.dev evs ∧
      ((r = 0 ∧ (∃ ps' fr' t', RTab c lo K P ps' fr' t' d' (L.put c.maxRec (key, data))) ∧
        Trail c P (Spec.CutPut c.maxRec L (key, data)) L d.dev.file evs (L.put c.maxRec (key, data)) d'.dev.file) ∨
      (r ≠ 0 ∧ evs = [] ∧ RTab c lo K P ps fr t d' L)) ∧ PutPages c d d' evs r key data loc := by
  have E := orderCheck_same (c := c) d key
  have G := hok.geo
  have hcap := hok.cap
  have hcap127 := hok.cap127
  unfold putD
  obtain ⟨d1, b, h⟩ : ∃ d1 b, orderCheck c d key = (d1, b) := ⟨_, _, rfl⟩
  rw [h] at E ⊢
  simp only at E ⊢
  have T1 := T.congr E
  rw [← E.next] at hP
  rw [← E.dev]
  cases b with
  | false =>
    rw [if_neg (by simp)]
    exact ⟨d1, 1, false, [], rfl, (devRun_nil _ _).symm, Or.inr ⟨by decide, rfl, T1⟩, (fun _ _ h => by cases h), fun _ => E.wbuf,
      fun h => by cases h⟩
  | true =>
    rw [if_pos rfl]
    rw [T1.count]
    by_cases hf : L.buf.length ≥ c.maxRec
    · -- the page is full
      have hput : L.put c.maxRec (key, data) = ⟨L.pages ++ [L.buf], [] ++ [(key, data)]⟩ := by
        unfold Log.put; rw [if_pos hf]; rfl
      have hne : L.buf ≠ [] := by intro h; rw [h, List.length_nil] at hf; omega
      rw [if_pos hf, putPage_eq hok.io hok.spline, Res.ok_bind]
      have ha := T1.avail_pos G
      obtain ⟨I1, m1, ⟨a, hst, S1⟩, TR1⟩ := T1.seal hok hB hne hP
      have R0 : Spec.CutPut c.maxRec L (key, data) L := .before
      have R1 : Spec.CutPut c.maxRec L (key, data) ⟨L.pages ++ [L.buf], []⟩ := .full hf
      have R2 : Spec.CutPut c.maxRec L (key, data) ⟨L.pages ++ [L.buf], [] ++ [(key, data)]⟩ := by
        rw [← hput]; exact .after
      have TR1 := TR1 _ R0 R1
      have hall : (Log.all ⟨L.pages ++ [L.buf], []⟩) = L.all := by unfold Log.all; simp
      have S2 := S1.append hok.layout hB.key loc hd hlo hk (by simp) (by rw [hall]; exact hgt)
      have hcap2 : Capped c.maxRec ⟨L.pages ++ [L.buf], [] ++ [(key, data)]⟩ := by
        rw [← hput]; exact T.cap.put hok.cap _
      have hlen := T1.len
      have hbd := areaOf_bounds hok.B0 d1.next
      have hmin := T1.min
      have hav := T1.avail
      have hsd : (sealed c d1).dev = devRun c d1.dev [.write (d1.next % c.N) (outPage d1)] := by rw [sealed_run ha]
      have hsn : (sealed c d1).next = d1.next + 1 := by rw [sealed_run ha]
      have hsm : (sealed c d1).min = d1.min := by rw [sealed_run ha]
      have hsa : (sealed c d1).avail = d1.avail - 1 := by rw [sealed_run ha]
      have hss : (sealed c d1).rlcStart = d1.rlcStart := by rw [sealed_run ha]
      have hsx : (sealed c d1).rlcNext = d1.rlcNext := by rw [sealed_run ha]
      unfold finishPut
      simp only [hok.on, if_true, true_and]
      have hS2' : Sim c lo K a (clr { sealed c d1 with wbuf := appendRec c (sealed c d1).wbuf key data loc })
          ⟨L.pages ++ [L.buf], [] ++ [(key, data)]⟩ := S2
      generalize hd2 : ({ sealed c d1 with wbuf := appendRec c (sealed c d1).wbuf key data loc } : Data) = d2 at hS2' ⊢
      have h2d : d2.dev = (sealed c d1).dev := by rw [← hd2]
      have h2n : d2.next = d1.next + 1 := by rw [← hd2]; exact hsn
      rw [hsn]
      have h2m : d2.min = d1.min := by rw [← hd2]; exact hsm
      have h2a : d2.avail = d1.avail - 1 := by rw [← hd2]; exact hsa
      have h2s : d2.rlcStart = d1.rlcStart := by rw [← hd2]; exact hss
      have h2x : d2.rlcNext = d1.rlcNext := by rw [← hd2]; exact hsx
      have h2w : Page.within d2.wbuf c.pageSize := by
        rw [← hd2]
        show Page.within (appendRec c (sealed c d1).wbuf key data loc) c.pageSize
        rw [sealed_run ha]
        exact within_append hok.plain (within_init hok.plain) key data loc hd (by
          show pageCount (initPage c) < c.maxRec
          rw [← recs_length c, recs_init]; exact hcap)
      by_cases hblk : (d1.next + 1) % c.B = 0
      · rw [if_pos hblk]
        -- the block is complete: the temporary area moves
        have hS : areaOf c.B d1.next = d1.next + 1 := by
          obtain ⟨j, hj⟩ := Nat.dvd_of_mod_eq_zero hblk
          obtain ⟨i, hi⟩ := areaOf_dvd c.B d1.next
          have h1 : c.B * i < c.B * (j + 1) := by
            rw [Nat.mul_add]
            have := hbd.2
            rw [hi] at this
            omega
          have h2 := Nat.lt_of_mul_lt_mul_left h1
          have h3 := Nat.mul_le_mul_left c.B (show i ≤ j by omega)
          omega
        have hA2 : areaOf c.B d2.next = areaOf c.B d1.next + c.B := by
          refine (areaOf_unique hok.B0 ?_ (by have := hok.B0; omega) (by omega)).symm
          exact (Nat.dvd_add_right (areaOf_dvd _ _)).mpr (dvd_refl _)
        have hlp : areaOf c.B d1.next = (ps ++ [outPage d1]).length := by
          rw [List.length_append, List.length_singleton, hlen, hS]
        obtain ⟨f', I2, TR2⟩ := shift_trail (L := ⟨L.pages ++ [L.buf], []⟩) G hok.eraser I1 hlp m1 rfl R1
        rw [shiftRlc_eq G hok.io hok.spline (S := areaOf c.B d1.next) (by rw [h2s]; exact T1.start) (by rw [h2m]; exact hmin),
          Res.ok_bind]
        have hf' : (shifted c (areaOf c.B d1.next) d2).dev.file = f' := by
          rw [TR2.file, ← h2d]; rfl
        have hmin' : (shifted c (areaOf c.B d1.next) d2).min = areaOf c.B d2.next + 2 * c.B - c.N := by
          have := hok.four
          have := hok.B0
          obtain ⟨i, hi⟩ := areaOf_dvd c.B d1.next
          obtain ⟨j, hj⟩ := hok.dvd
          show (if c.N ≤ areaOf c.B d1.next + 2 * c.B then d2.min + c.B else d2.min) = _
          rw [h2m, hmin, hA2]
          split_ifs with h
          · omega
          · -- both are multiples of the block size
            have : areaOf c.B d1.next + 3 * c.B ≤ c.N := by
              rw [hi, hj] at h ⊢
              have : c.B * (i + 2) < c.B * j := by rw [Nat.mul_add]; omega
              have := Nat.lt_of_mul_lt_mul_left this
              have := Nat.mul_le_mul_left c.B (show i + 3 ≤ j by omega)
              rw [Nat.mul_add] at this
              omega
            omega
        have hav' : (shifted c (areaOf c.B d1.next) d2).next + (shifted c (areaOf c.B d1.next) d2).avail + 2 * c.B =
            (shifted c (areaOf c.B d1.next) d2).min + c.N := by
          show d2.next + (if c.N ≤ areaOf c.B d1.next + 2 * c.B then d2.avail + c.B else d2.avail) + 2 * c.B =
            (if c.N ≤ areaOf c.B d1.next + 2 * c.B then d2.min + c.B else d2.min) + c.N
          rw [h2m, h2n, h2a]
          split_ifs <;> omega
        have hle : d2.min ≤ (shifted c (areaOf c.B d1.next) d2).min := by
          show d2.min ≤ (if c.N ≤ areaOf c.B d1.next + 2 * c.B then d2.min + c.B else d2.min)
          split_ifs <;> omega
        have I2' : RImg c P (ps ++ [outPage d1]) (areaOf c.B d2.next) 0 none (shifted c (areaOf c.B d1.next) d2).dev.file := by
          rw [hf', hA2]; exact I2
        have S3 : Sim c lo K a (clr (shifted c (areaOf c.B d1.next) d2)) ⟨L.pages ++ [L.buf], [] ++ [(key, data)]⟩ := by
          refine hS2'.onImg (d := d2) G I2' (by have := hB.pages; omega) m1 rfl hmin' hle rfl ?_ ?_
          · show Spline.Inv (if c.N ≤ areaOf c.B d1.next + 2 * c.B ∧ c.noClean = false then d2.spl.clean (d2.min + c.B) else d2.spl) _ _ _
            split_ifs
            · exact hS2'.spl.clean _
            · exact hS2'.spl
          · show (if c.N ≤ areaOf c.B d1.next + 2 * c.B ∧ c.noClean = false then d2.spl.clean (d2.min + c.B) else d2.spl).maxErr = _
            split_ifs
            · rw [Spline.clean_maxErr]; exact hS2'.err
            · exact hS2'.err
        obtain ⟨d', evs, fr', p, e1, e2, e3, e4, e5, e6, e7⟩ := temp_step (L := ⟨L.pages ++ [L.buf], []⟩)
          (d := shifted c (areaOf c.B d1.next) d2) hok hB hst I2' m1 rfl
          (by show (areaOf c.B d1.next + c.B) % c.N = areaOf c.B d2.next % c.N; rw [hA2])
          (by show (areaOf c.B d1.next + c.B) % c.N % c.N = (areaOf c.B d2.next + 0) % c.N; rw [hA2, Nat.mod_mod, Nat.add_zero])
          S3 hmin' hav' hcap2 (by rw [show (shifted c (areaOf c.B d1.next) d2).wbuf = d2.wbuf from rfl]; exact h2w)
        rw [e1]
        refine ⟨d', 0, true, [.write (d1.next % c.N) (outPage d1)] ++ (shiftEvs c (areaOf c.B d1.next) ++ evs), rfl, ?_,
          Or.inl ⟨rfl, ⟨_, _, _, hput ▸ e3⟩, ?_⟩, ?_, fun h => absurd rfl h, fun _ => ⟨initPage c, ?_, Or.inr rfl⟩⟩
        · rw [e2]
          show devRun c (devRun c d2.dev _) evs = _
          rw [h2d, hsd, devRun_append, devRun_append]
        · rw [hput]
          have := e5 _ R1 R2
          rw [hf'] at this
          exact TR1.append (TR2.append this)
        · intro ph q hq
          rcases List.mem_append.mp hq with hq | hq
          · cases List.mem_singleton.mp hq
            left
            rw [← E.wbuf]
            exact sameRecs_id c d1.wbuf d1.next
          · rcases List.mem_append.mp hq with hq | hq
            · exact absurd hq shiftEvs_write
            · right
              rw [e7 ph q hq, e6]
              exact SameRecs.refl _ _
        · rw [e6]
          have h2w : d2.wbuf = appendRec c (initPage c) key data loc := by
            rw [← hd2]
            show appendRec c (sealed c d1).wbuf key data loc = _
            rw [sealed_run ha]
          rw [← h2w]
          exact sameRecs_id c d2.wbuf d2.next
      · rw [if_neg hblk]
        have hA2 : areaOf c.B d2.next = areaOf c.B d1.next := by
          have hne' : areaOf c.B d1.next ≠ d1.next + 1 := by
            intro h
            rw [← h] at hblk
            exact hblk (Nat.mod_eq_zero_of_dvd (areaOf_dvd _ _))
          exact (areaOf_unique hok.B0 (areaOf_dvd _ _) (by omega) (by omega)).symm
        obtain ⟨d', evs, fr', p, e1, e2, e3, e4, e5, e6, e7⟩ := temp_step (L := ⟨L.pages ++ [L.buf], []⟩) (d := d2) hok hB hst
          (by rw [hA2, h2d]; exact I1) m1 rfl (by rw [hA2, h2s]; exact T1.start) (by rw [hA2, h2x]; exact T1.nxt)
          hS2' (by rw [hA2, h2m]; exact hmin) (by rw [h2n, h2m, h2a]; omega) hcap2 h2w
        rw [e1]
        refine ⟨d', 0, true, [.write (d1.next % c.N) (outPage d1)] ++ evs, rfl, ?_, Or.inl ⟨rfl, ⟨_, _, _, hput ▸ e3⟩, ?_⟩,
          ?_, fun h => absurd rfl h, fun _ => ⟨initPage c, ?_, Or.inr rfl⟩⟩
        · rw [e2, h2d, hsd, devRun_append]
        · rw [hput]
          have := e5 _ R1 R2
          rw [h2d] at this
          exact TR1.append this
        · intro ph q hq
          rcases List.mem_append.mp hq with hq | hq
          · cases List.mem_singleton.mp hq
            left
            rw [← E.wbuf]
            exact sameRecs_id c d1.wbuf d1.next
          · right
            rw [e7 ph q hq, e6]
            exact SameRecs.refl _ _
        · rw [e6]
          have h2w : d2.wbuf = appendRec c (initPage c) key data loc := by
            rw [← hd2]
            show appendRec c (sealed c d1).wbuf key data loc = _
            rw [sealed_run ha]
          rw [← h2w]
          exact sameRecs_id c d2.wbuf d2.next
    · rw [if_neg hf]
      have hput : L.put c.maxRec (key, data) = ⟨L.pages, L.buf ++ [(key, data)]⟩ := by
        unfold Log.put; rw [if_neg hf]
      obtain ⟨a, hst, S1⟩ := T1.sim
      have S2 := S1.append hok.layout hB.key loc hd hlo hk (by omega) hgt
      have R0 : Spec.CutPut c.maxRec L (key, data) L := .before
      have R2 : Spec.CutPut c.maxRec L (key, data) ⟨L.pages, L.buf ++ [(key, data)]⟩ := by
        rw [← hput]; exact .after
      have hcap2 : Capped c.maxRec ⟨L.pages, L.buf ++ [(key, data)]⟩ := by
        rw [← hput]; exact T.cap.put hok.cap _
      unfold finishPut
      simp only [hok.on, if_true, Bool.false_eq_true, false_and, if_false]
      obtain ⟨d', evs, fr', p, e1, e2, e3, e4, e5, e6, e7⟩ := temp_step (L := L)
        (d := { d1 with wbuf := appendRec c d1.wbuf key data loc }) hok hB hst
        T1.img T1.pages T1.tmp T1.start T1.nxt S2 T1.min T1.avail hcap2
        (within_append hok.plain T1.fits key data loc hd (by rw [T1.count]; exact Nat.lt_of_not_ge hf))
      rw [e1]
      refine ⟨d', 0, false, evs, rfl, e2, Or.inl ⟨rfl, ⟨_, _, _, hput ▸ e3⟩, ?_⟩, ?_, fun h => absurd rfl h,
        fun _ => ⟨d1.wbuf, ?_, Or.inl ⟨E.wbuf, by rw [T1.count]; omega⟩⟩⟩
      · rw [hput]
        exact e5 _ R0 R2
      · intro ph q hq
        right
        rw [e7 ph q hq, e6]
        exact SameRecs.refl _ _
      · rw [e6]
        exact sameRecs_id c (appendRec c d1.wbuf key data loc) d1.next

/-- `embedDBPut` of a key larger than all stored ones: accepted or refused, and safe at every moment. -/
theorem RTab.put (hok : RlcOk c K P) (hB : Bounds c lo K P) (T : RTab c lo K P ps fr t d L) {key : Nat} {data : List Byte}
    (hlo : lo ≤ key) (hk : key < K) (hd : data.length = c.dataSize) (hgt : ∀ r ∈ L.all, r.1 < key) (hP : d.next + 1 < P) :
    ∃ d' r w evs, putD c d key data 0 = .ok (d', r, w) ∧ d'.dev = devRun c d.dev evs ∧
      ((r = 0 ∧ (∃ ps' fr' t', RTab c lo K P ps' fr' t' d' (L.put c.maxRec (key, data))) ∧
        Trail c P (Spec.CutPut c.maxRec L (key, data)) L d.dev.file evs (L.put c.maxRec (key, data)) d'.dev.file) ∨
      (r ≠ 0 ∧ evs = [] ∧ RTab c lo K P ps fr t d' L)) := by
  obtain ⟨d', r, w, evs, h1, h2, h3, -⟩ := T.putL hok hB 0 hlo hk hd hgt hP
  exact ⟨d', r, w, evs, h1, h2, h3⟩

/-- `embedDBFlush`, unless it completes a block. -/
theorem RTab.flushL (hok : RlcOk c K P) (hB : Bounds c lo K P) (T : RTab c lo K P ps fr t d L)
    (hf : FlushOk c d) (hP : d.next + 1 < P) :
    ∃ d' w evs, flushD c d = .ok (d', 0, w) ∧ d'.dev = devRun c d.dev evs ∧
      (∃ ps' fr' t', RTab c lo K P ps' fr' t' d' L.flush) ∧
      Trail c P (fun L' => L' = L ∨ L' = L.flush) L d.dev.file evs L.flush d'.dev.file ∧
      (∀ ph q, Ev.write ph q ∈ evs → SameRecs c q d.wbuf) ∧ (d'.wbuf = d.wbuf ∨ d'.wbuf = initPage c) := by
  have G := hok.geo
  rw [flushD_eq hok.io hok.spline, T.count]
  unfold FlushOk at hf
  rw [T.count] at hf
  by_cases hb : L.buf = []
  · rw [if_pos (by rw [hb]; simp)]
    have e : L.flush = L := by unfold Log.flush; rw [if_pos hb]
    rw [e]
    exact ⟨d, false, [], rfl, (devRun_nil _ _).symm, ⟨_, _, _, T⟩, .nil (Or.inl rfl) (T.img.storedR T.pages T.tmp),
      (fun _ _ h => by cases h), Or.inl rfl⟩
  · have hpos := List.length_pos_iff.mpr hb
    rw [if_neg (by omega)]
    have e : L.flush = ⟨L.pages ++ [L.buf], []⟩ := by unfold Log.flush; rw [if_neg hb]
    have ha := T.avail_pos G
    obtain ⟨I1, m1, hS, TR1⟩ := T.seal hok hB hb hP
    have hbd := areaOf_bounds hok.B0 d.next
    have hav := T.avail
    have hA2 : areaOf c.B (d.next + 1) = areaOf c.B d.next := by
      have hne' : areaOf c.B d.next ≠ d.next + 1 := by
        intro h
        rcases hf with hf | hf
        · omega
        · rw [← h] at hf
          exact hf (Nat.mod_eq_zero_of_dvd (areaOf_dvd _ _))
      exact (areaOf_unique hok.B0 (areaOf_dvd _ _) (by omega) (by omega)).symm
    have hsn : (sealed c d).next = d.next + 1 := by rw [sealed_run ha]
    refine ⟨_, _, _, rfl, by rw [sealed_run ha], ⟨ps ++ [outPage d], fr, none, ?_⟩,
      by rw [e]; exact TR1 (fun L' => L' = L ∨ L' = ⟨L.pages ++ [L.buf], []⟩) (Or.inl rfl) (Or.inr rfl), ?_,
      Or.inr (by rw [sealed_run ha])⟩
    swap
    · intro ph q hq
      cases List.mem_singleton.mp hq
      exact sameRecs_id c d.wbuf d.next
    rw [e]
    refine ⟨by rw [hsn, hA2]; exact I1, m1, rfl, ?_, ?_, hS, ?_, ?_, by rw [← e]; exact T.cap.flush,
      by rw [sealed_run ha]; exact init_within hok⟩
    · rw [hsn, hA2, sealed_run ha]; exact T.start
    · rw [hsn, hA2, sealed_run ha]; exact T.nxt
    · rw [hsn, hA2, sealed_run ha]; exact T.min
    · rw [sealed_run ha]
      show d.next + 1 + (d.avail - 1) + 2 * c.B = d.min + c.N
      omega

/-- `embedDBFlush`, unless it completes a block. -/
theorem RTab.flush (hok : RlcOk c K P) (hB : Bounds c lo K P) (T : RTab c lo K P ps fr t d L)
    (hf : FlushOk c d) (hP : d.next + 1 < P) :
    ∃ d' w evs, flushD c d = .ok (d', 0, w) ∧ d'.dev = devRun c d.dev evs ∧
      (∃ ps' fr' t', RTab c lo K P ps' fr' t' d' L.flush) ∧
      Trail c P (fun L' => L' = L ∨ L' = L.flush) L d.dev.file evs L.flush d'.dev.file := by
  obtain ⟨d', w, evs, h1, h2, h3, h4, -⟩ := T.flushL hok hB hf hP
  exact ⟨d', w, evs, h1, h2, h3, h4⟩

/-- A new table. -/
theorem RTab.fresh (hok : RlcOk c K P) (hP : 0 < P) (rb : Page) (sm : Nat → Nat × Nat) :
    RTab c lo K P [] 0 none (Data.fresh c rb sm) Log.empty := by
  have hA : areaOf c.B 0 = c.B := by unfold areaOf; simp
  have h4 := hok.four
  have hB := hok.B0
  refine ⟨?_, rfl, rfl, ?_, ?_, ⟨0, Or.inl rfl, ?_⟩, ?_, ?_, ⟨by simp [Log.empty], by simp [Log.empty]⟩, init_within hok⟩
  · show RImg c P [] (areaOf c.B 0) 0 none fun _ => none
    rw [hA]; exact RImg.fresh hok.geo hP
  · show c.B = areaOf c.B 0 % c.N
    rw [hA, Nat.mod_eq_of_lt (by omega)]
  · show c.B % c.N = (areaOf c.B 0 + 0) % c.N
    rw [hA]; rfl
  · have S := (fresh_table (lo := lo) hok.plain rb sm).sim
    exact ⟨S.next, S.amin, S.minle, S.live, S.window, S.stored, S.buf, S.full, S.sorted, S.bound, S.spl, S.err, S.cacheN, S.cache⟩
  · show 0 = areaOf c.B 0 + 2 * c.B - c.N
    rw [hA]; omega
  · show 0 + (if c.rlc then c.N - c.B * 2 else c.N) + 2 * c.B = 0 + c.N
    rw [hok.on]
    simp only [if_true]
    omega

end

end EDB
