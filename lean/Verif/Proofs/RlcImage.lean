import Verif.Proofs.Journal
import Verif.Proofs.Always
import Verif.Model.RlcLife

/-! Helper lemmas: what the data file looks like with record-level consistency.

Physical pages are named by the page number `a` that would be stored there in the current lap (`a % N`).  With `n`
permanent pages written, the pages `n ≤ a < S + 2B` hold no permanent data: `[S, S + 2B)` are the two blocks of temporary
pages, and `[n, S)` is what is left of the block the next permanent pages go to. -/

namespace EDB

open Spec (Log)

/-- A page as an erase leaves it: no plausible record count, and a number that no page has or all zero. -/
def Blank (P : Nat) (q : Page) : Prop :=
  toInt8 (pageCount q) ≤ 0 ∧ (P ≤ pageId q ∨ (pageId q = 0 ∧ pageCount q = 0))

/-- The device's erase: does nothing, or leaves blank pages; pages never written stay unreadable. -/
structure RlcEraser (c : Cfg) (P : Nat) : Prop where
  none : c.eraseFx none = none
  some : (∀ q, c.eraseFx (some q) = some q) ∨ ∀ q, ∃ e, c.eraseFx (some q) = some e ∧ Blank P e

/-- The shape of the data file: at least four blocks (embedDB.c:286-291). -/
structure RlcGeo (c : Cfg) : Prop where
  B0 : 0 < c.B
  dvd : c.B ∣ c.N
  four : 4 * c.B ≤ c.N

/-- Page `a` does not hold the permanent page of the previous lap. -/
def Dead (c : Cfg) (file : Nat → Option Page) (a : Nat) : Prop :=
  ∀ q, file (a % c.N) = some q → ¬ (pageId q + c.N = a ∧ 0 < pageCount q)

/-- `file` holds the newest of the permanent pages `ps`, and the temporary page `t` of page number `ps.length`, the last
one written: it is at offset `fr - 1` of the temporary area, which starts at `S`. -/
structure RImg (c : Cfg) (P : Nat) (ps : List Page) (S fr : Nat) (t : Option Page) (file : Nat → Option Page) : Prop where
  lt : ps.length < P
  ids : ∀ l (h : l < ps.length), pageId ps[l] = l
  cnt : ∀ p ∈ ps, 0 < pageCount p ∧ pageCount p ≤ c.maxRec
  dvd : c.B ∣ S
  lo : ps.length ≤ S
  hi : S ≤ ps.length + c.B
  fr2 : fr ≤ 2 * c.B
  pre : S = ps.length → 0 < fr ∧ t = none
  live : ∀ l (h : l < ps.length), S + 2 * c.B ≤ l + c.N → file (l % c.N) = some ps[l]
  junk : ∀ a, ps.length ≤ a → a < S + 2 * c.B → ∀ q, file (a % c.N) = some q →
    pageId q + c.N = a ∨ Blank P q ∨ (pageId q ≤ ps.length ∧ pageId q % c.N ≠ a % c.N)
  mine : ∀ a, ps.length ≤ a → a < S + 2 * c.B → ∀ q, file (a % c.N) = some q → pageId q = ps.length →
    (ps.length < S ∧ S ≤ a ∧ t ≠ none) ∨ (ps.length = 0 ∧ a < S)
  first : ∀ a, ps.length ≤ a → a < S + 2 * c.B → c.B ∣ a → ∀ q, file (a % c.N) = some q → pageId q + c.N = a →
    0 < pageCount q → ∀ l (h : l < ps.length), a ≤ l + c.N → file (l % c.N) = some ps[l]
  dead : ∀ a, ps.length ≤ a → a < S + fr → c.B ∣ a → Dead c file a
  out : ∀ ph, c.N ≤ ph → file ph = none
  far : ∀ ph, S + 2 * c.B ≤ ph → ∀ q, file ph = some q → Blank P q ∧ (c.B ∣ ph → pageId q % c.N ≠ ph)
  idle : ps.length = 0 → t = none → ∀ ph, S ≤ ph → ∀ q, file ph = some q → P ≤ pageId q ∧ c.eraseFx (some q) = some q
  old : ∀ a, c.N ≤ a → ps.length ≤ a → a < S + 2 * c.B → file (a % c.N) ≠ none
  read : ∀ i, i < fr → file ((S + i) % c.N) ≠ none
  temp : ∀ p, t = some p → 0 < fr ∧ file ((S + (fr - 1)) % c.N) = some p ∧ pageId p = ps.length ∧
    0 < pageCount p ∧ pageCount p ≤ c.maxRec ∧
    ∀ i, i < 2 * c.B → i ≠ fr - 1 → ∀ q, file ((S + i) % c.N) = some q → pageId q = ps.length → pageCount q < pageCount p
  fits : ∀ p, t = some p → Page.within p c.pageSize

section
variable {c : Cfg} {P S fr : Nat} {ps : List Page} {t : Option Page} {file : Nat → Option Page}

theorem RlcGeo.N0 (G : RlcGeo c) : 0 < c.N := by have := G.B0; have := G.four; omega

theorem RImg.fresh (G : RlcGeo c) (hP : 0 < P) : RImg c P [] c.B 0 none (fun _ => none) where
  lt := hP
  ids l h := by simp at h
  cnt p h := by simp at h
  dvd := dvd_refl _
  lo := Nat.zero_le _
  hi := by simp
  fr2 := Nat.zero_le _
  pre h := absurd h (by have := G.B0; simp; omega)
  live l h := by simp at h
  junk a _ _ q h := by simp at h
  mine a _ _ q h := by simp at h
  first a _ _ _ q h := by simp at h
  dead a _ _ _ q h := by simp at h
  out _ _ := rfl
  far ph _ q h := by simp at h
  idle _ _ ph _ q h := by simp at h
  old a h1 h2 h3 := by have := G.four; have := G.B0; omega
  read i h := by omega
  temp p h := by cases h
  fits p h := by cases h

/-- The pages of an aligned block. -/
theorem block_mem {N B x ph : Nat} (hd : B ∣ N) (hN : 0 < N) (hx : B ∣ x) :
    (x % N ≤ ph ∧ ph < x % N + B) ↔ ∃ i, i < B ∧ ph = (x + i) % N := by
  have hend := block_end hd hN (Nat.mod_eq_zero_of_dvd hx)
  constructor
  · rintro ⟨h1, h2⟩
    refine ⟨ph - x % N, by omega, ?_⟩
    rw [Nat.add_mod, Nat.mod_eq_of_lt (show ph - x % N < N by omega), Nat.mod_eq_of_lt (by omega)]
    omega
  · rintro ⟨i, hi, rfl⟩
    rw [Nat.add_mod, Nat.mod_eq_of_lt (show i < N by omega), Nat.mod_eq_of_lt (show x % N + i < N by omega)]
    omega

theorem applyEv_none (hE : RlcEraser c P) {lo hi : Nat} (h : ∀ i, lo ≤ i → i < hi → file i = none) :
    Spec.applyEv c.eraseFx file (.erase lo hi) = file := by
  funext i
  simp only [Spec.applyEv]
  split_ifs with h1
  · rw [h i h1.1 h1.2, hE.none]
  · rfl

/-- Writing permanent page number `n`. -/
theorem RImg.perm (G : RlcGeo c) (I : RImg c P ps S fr t file) {p : Page} (hid : pageId p = ps.length)
    (hc : 0 < pageCount p ∧ pageCount p ≤ c.maxRec) (hlt : ps.length < S) (hfr : 0 < fr) (hP : ps.length + 1 < P) :
    RImg c P (ps ++ [p]) S fr none (Spec.applyEv c.eraseFx file (.write (ps.length % c.N) p)) := by
  have hB := G.B0
  have h4 := G.four
  have hhi := I.hi
  have hlen : (ps ++ [p]).length = ps.length + 1 := by simp
  have hne : ∀ a, ps.length < a → a < ps.length + c.N → a % c.N ≠ ps.length % c.N := by
    intro a h1 h2 h
    have := mod_inj_window (by omega) (by omega) h
    omega
  have hsame : ∀ a, ps.length < a → a < ps.length + c.N →
      Spec.applyEv c.eraseFx file (.write (ps.length % c.N) p) (a % c.N) = file (a % c.N) := by
    intro a h1 h2
    simp only [Spec.applyEv]
    rw [if_neg (hne a h1 h2)]
  have hold : ∀ l (h : l < (ps ++ [p]).length), ps.length < l + c.N → (∀ h : l < ps.length, file (l % c.N) = some ps[l]) →
      Spec.applyEv c.eraseFx file (.write (ps.length % c.N) p) (l % c.N) = some (ps ++ [p])[l] := by
    intro l h h1 h2
    simp only [Spec.applyEv]
    rcases Nat.lt_or_ge l ps.length with hl | hl
    · rw [if_neg, h2 hl, List.getElem_append_left hl]
      intro h
      have := mod_inj_window (by omega) (by omega) h
      omega
    · have : l = ps.length := by omega
      subst this
      rw [if_pos rfl]
      simp
  refine ⟨by omega, ?_, ?_, I.dvd, by omega, by omega, I.fr2, fun _ => ⟨hfr, rfl⟩, ?_, ?_, ?_, ?_, ?_, ?_, ?_,
    by intro h; omega, ?_, ?_, by simp, by simp⟩
  · intro l h
    rcases Nat.lt_or_ge l ps.length with hl | hl
    · rw [List.getElem_append_left hl]; exact I.ids l hl
    · have : l = ps.length := by omega
      subst this
      simpa using hid
  · intro q hq
    rcases List.mem_append.mp hq with h | h
    · exact I.cnt q h
    · rw [List.mem_singleton.mp h]; exact hc
  · intro l h hl
    exact hold l h (by omega) (fun h => I.live l h hl)
  · intro a h1 h2 q hq
    rw [hsame a (by omega) (by omega)] at hq
    rcases I.junk a (by omega) h2 q hq with h | h | ⟨h, h'⟩
    · exact Or.inl h
    · exact Or.inr (Or.inl h)
    · exact Or.inr (Or.inr ⟨by omega, h'⟩)
  · intro a h1 h2 q hq h3
    exfalso
    rw [hsame a (by omega) (by omega)] at hq
    rw [hlen] at h1 h3
    rcases I.junk a (by omega) h2 q hq with h | h | ⟨h, h'⟩
    · omega
    · rcases h.2 with h | h <;> omega
    · omega
  · intro a h1 h2 h3 q hq h5 h6 l hl h7
    rw [hsame a (by omega) (by omega)] at hq
    exact hold l hl (by omega) (fun h => I.first a (by omega) h2 h3 q hq h5 h6 l h h7)
  · intro a h1 h2 h3 q hq
    rw [hsame a (by omega) (by have := I.fr2; omega)] at hq
    exact I.dead a (by omega) h2 h3 q hq
  · intro ph hph
    simp only [Spec.applyEv]
    rw [if_neg, I.out ph hph]
    rintro rfl
    have := Nat.mod_lt ps.length G.N0
    omega
  · intro ph hph q hq
    simp only [Spec.applyEv] at hq
    rw [if_neg] at hq
    · exact I.far ph hph q hq
    · rintro rfl
      have := Nat.mod_le ps.length c.N
      omega
  · intro a h1 h2 h3
    rw [hsame a (by omega) (by omega)]
    exact I.old a h1 (by omega) h3
  · intro i hi
    have := I.fr2
    rw [hsame _ (by omega) (by omega)]
    exact I.read i hi

/-- The device's erase does nothing. -/
def NoErase (c : Cfg) : Prop := ∀ q, c.eraseFx (some q) = some q

/-- Erasing one block of pages without permanent data, not the one with the temporary page. -/
theorem RImg.erase (G : RlcGeo c) (hE : RlcEraser c P) (I : RImg c P ps S fr t file) {x : Nat} (hx : c.B ∣ x)
    (h1 : ps.length ≤ x) (h2 : x < S + 2 * c.B) (hdead : NoErase c ∨ ∀ a, ps.length ≤ a → a < x → c.B ∣ a → Dead c file a)
    (ht : t ≠ none → S + fr ≤ x ∨ x + c.B < S + fr) :
    RImg c P ps S fr t (Spec.applyEv c.eraseFx file (.erase (x % c.N) (x % c.N + c.B))) ∧
      (NoErase c ∨ Dead c (Spec.applyEv c.eraseFx file (.erase (x % c.N) (x % c.N + c.B))) x) := by
  have hB := G.B0
  have h4 := G.four
  have hhi := I.hi
  have hlo := I.lo
  have hN := G.N0
  have hfr2 := I.fr2
  -- only whole blocks
  have hx2 : x + c.B ≤ S + 2 * c.B := by
    obtain ⟨i, hi⟩ := hx
    obtain ⟨j, hj⟩ := I.dvd
    have e : S + 2 * c.B = c.B * (j + 2) := by rw [hj]; ring
    rw [e] at h2 ⊢
    rw [hi] at h2 ⊢
    have := Nat.lt_of_mul_lt_mul_left h2
    have := Nat.mul_le_mul_left c.B this
    rw [Nat.mul_succ] at this
    exact this
  rcases hE.some with hid | hbl
  · have : Spec.applyEv c.eraseFx file (.erase (x % c.N) (x % c.N + c.B)) = file := by
      funext i
      simp only [Spec.applyEv]
      split_ifs with h
      · cases hf : file i with
        | none => exact hE.none
        | some q => exact hid q
      · rfl
    rw [this]
    exact ⟨I, Or.inl hid⟩
  · replace hdead : ∀ a, ps.length ≤ a → a < x → c.B ∣ a → Dead c file a := by
      rcases hdead with h | h
      · rintro a a1 a2 - q hq ⟨b1, b2⟩
        obtain ⟨e, e1, e2⟩ := hbl q
        rw [h q] at e1
        cases e1
        have := I.lt
        rcases e2.2 with h | h <;> omega
      · exact h
    have hin : ∀ ph, (∃ i, i < c.B ∧ ph = (x + i) % c.N) →
        Spec.applyEv c.eraseFx file (.erase (x % c.N) (x % c.N + c.B)) ph = c.eraseFx (file ph) := by
      intro ph h
      simp only [Spec.applyEv]
      rw [if_pos ((block_mem G.dvd hN hx).mpr h)]
    have hout : ∀ ph, ¬ (∃ i, i < c.B ∧ ph = (x + i) % c.N) →
        Spec.applyEv c.eraseFx file (.erase (x % c.N) (x % c.N + c.B)) ph = file ph := by
      intro ph h
      simp only [Spec.applyEv]
      rw [if_neg (fun h' => h ((block_mem G.dvd hN hx).mp h'))]
    generalize Spec.applyEv c.eraseFx file (.erase (x % c.N) (x % c.N + c.B)) = file' at *
    -- content of any page afterwards
    have hcase : ∀ ph q, file' ph = some q → file ph = some q ∨ (Blank P q ∧ (∃ i, i < c.B ∧ ph = (x + i) % c.N) ∧ file ph ≠ none) := by
      intro ph q hq
      by_cases h : ∃ i, i < c.B ∧ ph = (x + i) % c.N
      · rw [hin ph h] at hq
        cases hf : file ph with
        | none => rw [hf, hE.none] at hq; cases hq
        | some q0 =>
          rw [hf] at hq
          obtain ⟨e, e1, e2⟩ := hbl q0
          rw [e1] at hq
          cases hq
          exact Or.inr ⟨e2, h, by simp⟩
      · rw [hout ph h] at hq
        exact Or.inl hq
    have hnone : ∀ ph, file ph ≠ none → file' ph ≠ none := by
      intro ph h
      by_cases h' : ∃ i, i < c.B ∧ ph = (x + i) % c.N
      · rw [hin ph h']
        cases hf : file ph with
        | none => exact absurd hf h
        | some q0 =>
          obtain ⟨e, e1, e2⟩ := hbl q0
          rw [e1]; simp
      · rw [hout ph h']; exact h
    -- pages not in the block
    have hfar : ∀ a, ps.length ≤ a → a < ps.length + c.N → (a < x ∨ x + c.B ≤ a) → file' (a % c.N) = file (a % c.N) := by
      intro a a1 a2 a3
      apply hout
      rintro ⟨i, hi, h⟩
      have := mod_inj_window (by omega) (by omega) h
      omega
    have hback : ∀ l, l < ps.length → x + c.B ≤ l + c.N → file' (l % c.N) = file (l % c.N) := by
      intro l l1 l2
      apply hout
      rintro ⟨i, hi, h⟩
      have := mod_inj_window (by omega) (by omega) h
      omega
    have hblankdead : ∀ a, ps.length ≤ a → a < ps.length + c.N → ∀ q, Blank P q → ¬ (pageId q + c.N = a ∧ 0 < pageCount q) := by
      rintro a a1 a2 q hq ⟨b1, b2⟩
      have := I.lt
      rcases hq.2 with h | h <;> omega
    refine ⟨⟨I.lt, I.ids, I.cnt, I.dvd, I.lo, I.hi, I.fr2, I.pre, ?_, ?_, ?_, ?_, ?_, ?_, ?_, ?_, ?_, ?_, ?_, I.fits⟩, Or.inr ?_⟩
    · intro l h hl
      rw [hback l h (by omega)]
      exact I.live l h hl
    · intro a a1 a2 q hq
      rcases hcase _ q hq with h | ⟨h, _⟩
      · exact I.junk a a1 a2 q h
      · exact Or.inr (Or.inl h)
    · intro a a1 a2 q hq h
      rcases hcase _ q hq with h' | ⟨h', _, hn⟩
      · exact I.mine a a1 a2 q h' h
      · have hz : ps.length = 0 := by
          have := I.lt
          rcases h'.2 with b | b <;> omega
        rcases Nat.lt_or_ge a S with haS | haS
        · exact Or.inr ⟨hz, haS⟩
        · cases t with
          | some p =>
            refine Or.inl ⟨?_, haS, by simp⟩
            rcases Nat.lt_or_ge ps.length S with h | h
            · exact h
            · cases (I.pre (by omega)).2
          | none =>
            -- the page has a number no page has, and stays as it is
            exfalso
            have haN : a % c.N = a := Nat.mod_eq_of_lt (by omega)
            rw [haN] at hq hn
            obtain ⟨q0, hq0⟩ := Option.ne_none_iff_exists'.mp hn
            obtain ⟨i1, i2⟩ := I.idle hz rfl a haS q0 hq0
            have := I.lt
            have hqq : q = q0 := by
              by_cases hc : ∃ i, i < c.B ∧ a = (x + i) % c.N
              · rw [hin a hc, hq0, i2] at hq; cases hq; rfl
              · rw [hout a hc, hq0] at hq; cases hq; rfl
            rw [hqq] at h
            omega
    · intro a a1 a2 a3 q hq h5 h6 l hl h7
      rcases hcase _ q hq with h' | ⟨h', _, hn⟩
      · have hax : ¬ a < x := fun h => hdead a a1 h a3 q h' ⟨h5, h6⟩
        -- a is not in the block either, or it would have been blanked
        by_cases hin' : a < x + c.B
        · exfalso
          have e : ∃ i, i < c.B ∧ a % c.N = (x + i) % c.N := ⟨a - x, by omega, by congr 1; omega⟩
          rw [hin _ e, h'] at hq
          obtain ⟨e', e1, e2⟩ := hbl q
          rw [e1] at hq
          cases hq
          exact hblankdead a a1 (by omega) _ e2 ⟨h5, h6⟩
        · rw [hback l hl (by omega)]
          exact I.first a a1 a2 a3 q h' h5 h6 l hl h7
      · exact absurd ⟨h5, h6⟩ (hblankdead a a1 (by omega) q h')
    · intro a a1 a2 a3 q hq
      rcases hcase _ q hq with h' | ⟨h', _, hn⟩
      · exact I.dead a a1 a2 a3 q h'
      · exact hblankdead a a1 (by omega) q h'
    · intro ph hph
      by_cases h' : ∃ i, i < c.B ∧ ph = (x + i) % c.N
      · rw [hin ph h', I.out ph hph, hE.none]
      · rw [hout ph h', I.out ph hph]
    · intro ph hph q hq
      rw [hout ph] at hq
      · exact I.far ph hph q hq
      · rintro ⟨i, hi, rfl⟩
        have := Nat.mod_le (x + i) c.N
        omega
    · intro z1 z2 ph hph q hq
      by_cases h' : ∃ i, i < c.B ∧ ph = (x + i) % c.N
      · rw [hin ph h'] at hq
        cases hf : file ph with
        | none => rw [hf, hE.none] at hq; cases hq
        | some q0 =>
          obtain ⟨i1, i2⟩ := I.idle z1 z2 ph hph q0 hf
          rw [hf, i2] at hq
          cases hq
          exact ⟨i1, i2⟩
      · rw [hout ph h'] at hq
        exact I.idle z1 z2 ph hph q hq
    · intro a a1 a2 a3
      exact hnone _ (I.old a a1 a2 a3)
    · intro i hi
      exact hnone _ (I.read i hi)
    · intro p hp
      obtain ⟨t1, t2, t3, t4, t5, t6⟩ := I.temp p hp
      have ht' := ht (by rw [hp]; simp)
      refine ⟨t1, ?_, t3, t4, t5, ?_⟩
      · rw [hfar _ (by omega) (by omega) (by omega)]; exact t2
      · intro i hi hne q hq hq2
        rcases hcase _ q hq with h' | ⟨h', _, hn⟩
        · exact t6 i hi hne q h' hq2
        · have := I.lt
          rcases h'.2 with h | h <;> omega
    · intro q hq
      have e : ∃ i, i < c.B ∧ x % c.N = (x + i) % c.N := ⟨0, by omega, by simp⟩
      rw [hin _ e] at hq
      cases hf : file (x % c.N) with
      | none => rw [hf, hE.none] at hq; cases hq
      | some q0 =>
        rw [hf] at hq
        obtain ⟨e', e1, e2⟩ := hbl q0
        rw [e1] at hq
        cases hq
        exact hblankdead x h1 (by omega) _ e2

/-- Moving the temporary area by one block. -/
theorem RImg.shift (G : RlcGeo c) (I : RImg c P ps S fr t file) (hS : S = ps.length) :
    RImg c P ps (S + c.B) 0 none file := by
  have hB := G.B0
  have h4 := G.four
  obtain ⟨p1, p2⟩ := I.pre hS
  have hnew : ∀ a, S + 2 * c.B ≤ a → a < S + 3 * c.B → ∀ q, file (a % c.N) = some q →
      (Blank P q ∧ pageId q ≠ ps.length ∧ a < c.N) ∨
      pageId q + c.N = a ∧ ∀ l (h : l < ps.length), a ≤ l + c.N → file (l % c.N) = some ps[l] := by
    intro a a1 a2 q hq
    rcases Nat.lt_or_ge a c.N with h | h
    · rw [Nat.mod_eq_of_lt h] at hq
      have hb := (I.far a a1 q hq).1
      refine Or.inl ⟨hb, ?_, h⟩
      intro hid
      have := I.lt
      rcases hb.2 with b | ⟨b, _⟩
      · omega
      · have := (I.idle (by omega) p2 a (by omega) q hq).1
        omega
    · right
      have e : a % c.N = (a - c.N) % c.N := Nat.mod_eq_sub_mod h
      rw [e, I.live (a - c.N) (by omega) (by omega)] at hq
      cases hq
      rw [I.ids]
      exact ⟨by omega, fun l hl hl' => I.live l hl (by omega)⟩
  refine ⟨I.lt, I.ids, I.cnt, (Nat.dvd_add_right I.dvd).mpr (dvd_refl _), by omega, by omega, Nat.zero_le _, by omega, ?_, ?_, ?_, ?_, ?_, I.out,
    fun ph hph => I.far ph (by omega), fun z _ ph hph => I.idle z p2 ph (by omega), ?_,
    by omega, by simp, by simp⟩
  · intro l h hl
    exact I.live l h (by omega)
  · intro a a1 a2 q hq
    rcases Nat.lt_or_ge a (S + 2 * c.B) with h | h
    · exact I.junk a a1 h q hq
    · rcases hnew a h (by omega) q hq with h' | h'
      · exact Or.inr (Or.inl h'.1)
      · exact Or.inl h'.1
  · intro a a1 a2 q hq h'
    exfalso
    rcases Nat.lt_or_ge a (S + 2 * c.B) with h | h
    · have := I.mine a a1 h q hq h'
      omega
    · rcases hnew a h (by omega) q hq with h'' | h''
      · exact h''.2.1 h'
      · omega
  · intro a a1 a2 a3 q hq h5 h6 l hl h7
    rcases Nat.lt_or_ge a (S + 2 * c.B) with h | h
    · exact I.first a a1 h a3 q hq h5 h6 l hl h7
    · rcases hnew a h (by omega) q hq with h'' | h''
      · omega
      · exact h''.2 l hl h7
  · intro a a1 a2 a3
    -- the only block start below S + B
    have : a = S := by
      obtain ⟨i, hi⟩ := a3
      obtain ⟨j, hj⟩ := I.dvd
      rw [← hS, hi, hj] at a1
      rw [hi, hj, Nat.add_zero, show c.B * j + c.B = c.B * (j + 1) by ring] at a2
      have b1 := Nat.le_of_mul_le_mul_left a1 hB
      have b2 := Nat.lt_of_mul_lt_mul_left a2
      have : i = j := by omega
      rw [hi, hj, this]
    exact I.dead a a1 (by omega) a3
  · intro a a1 a2 a3
    rcases Nat.lt_or_ge a (S + 2 * c.B) with h | h
    · exact I.old a a1 a2 h
    · have e : a % c.N = (a - c.N) % c.N := Nat.mod_eq_sub_mod a1
      rw [e, I.live (a - c.N) (by omega) (by omega)]
      simp

/-- Pages that were never written become readable (`Gaps`). -/
theorem RImg.gaps (G : RlcGeo c) (I : RImg c P ps S fr t file) {file' : Nat → Option Page} (g : Gaps c P file file') :
    RImg c P ps S fr t file' := by
  have hB := G.B0
  have h4 := G.four
  have hhi := I.hi
  have hlt := I.lt
  have keep : ∀ ph, file ph ≠ none → file' ph = file ph := by
    intro ph h
    rcases g ph with e | ⟨e, _⟩
    · exact e
    · exact absurd e h
  have keeps : ∀ ph q, file ph = some q → file' ph = some q := by
    intro ph q h
    rw [keep ph (by rw [h]; simp), h]
  have blank : ∀ ph q, file' ph = some q → file ph = some q ∨ (Blank P q ∧ ph < c.N ∧ file ph = none ∧
      (P ≤ pageId q → c.eraseFx (some q) = some q ∧ (c.B ∣ ph → pageId q % c.N ≠ ph)) ∧
      (pageId q < P → ∃ ph' q', ph < ph' ∧ file ph' = some q' ∧ pageId q' < P)) := by
    intro ph q h
    rcases g ph with e | ⟨e, hN, q', h', b1, b2⟩
    · rw [e] at h; exact Or.inl h
    · rw [h'] at h
      cases h
      right
      rcases b2 with ⟨b2, b3, b4⟩ | ⟨b2, b3, b4⟩
      · exact ⟨⟨b1, Or.inl b2⟩, hN, e, fun _ => ⟨b3, b4⟩, fun h => absurd b2 (by omega)⟩
      · exact ⟨⟨b1, Or.inr ⟨b2, b3⟩⟩, hN, e, fun h => by omega, fun _ => b4⟩
  have hwin : ∀ a, ps.length ≤ a → a < S + 2 * c.B → file (a % c.N) = none → a < c.N := by
    intro a a1 a2 h
    rcases Nat.lt_or_ge a c.N with h' | h'
    · exact h'
    · exact absurd h (I.old a h' a1 a2)
  -- a page of zeros is in front of a page that is not empty
  have zero : ∀ ph q, file' ph = some q → file ph = none → pageId q < P → ps.length = 0 → t = none → ph < S := by
    intro ph q h1 h2 h3 h4 h5
    rcases blank ph q h1 with b | ⟨_, _, _, _, b⟩
    · rw [h2] at b; cases b
    · obtain ⟨ph', q', b1, b2, b3⟩ := b h3
      by_contra hS
      have := (I.idle h4 h5 ph' (by omega) q' b2).1
      omega
  refine ⟨I.lt, I.ids, I.cnt, I.dvd, I.lo, I.hi, I.fr2, I.pre, ?_, ?_, ?_, ?_, ?_, ?_, ?_, ?_, ?_, ?_, ?_, I.fits⟩
  · intro l h hl
    exact keeps _ _ (I.live l h hl)
  · intro a a1 a2 q hq
    rcases blank _ q hq with h | h
    · exact I.junk a a1 a2 q h
    · exact Or.inr (Or.inl h.1)
  · intro a a1 a2 q hq hid
    rcases blank _ q hq with h | ⟨h, _, hn, _, _⟩
    · exact I.mine a a1 a2 q h hid
    · have hz : ps.length = 0 := by rcases h.2 with b | b <;> omega
      have haN := hwin a a1 a2 hn
      rcases Nat.lt_or_ge a S with haS | haS
      · exact Or.inr ⟨hz, haS⟩
      · cases t with
        | some p =>
          refine Or.inl ⟨?_, haS, by simp⟩
          rcases Nat.lt_or_ge ps.length S with h | h
          · exact h
          · cases (I.pre (by have := I.lo; omega)).2
        | none =>
          exfalso
          rw [Nat.mod_eq_of_lt haN] at hq hn
          have := zero a q hq hn (by omega) hz rfl
          omega
  · intro a a1 a2 a3 q hq h5 h6 l hl h7
    rcases blank _ q hq with h | ⟨h, _, hn, _, _⟩
    · exact keeps _ _ (I.first a a1 a2 a3 q h h5 h6 l hl h7)
    · have := hwin a a1 a2 hn
      omega
  · intro a a1 a2 a3 q hq
    rcases blank _ q hq with h | ⟨h, _, hn, _, _⟩
    · exact I.dead a a1 a2 a3 q h
    · have := I.fr2
      have := hwin a a1 (by omega) hn
      rintro ⟨h5, _⟩
      omega
  · intro ph hph
    cases h : file' ph with
    | none => rfl
    | some q =>
      rcases blank ph q h with h' | ⟨_, h', _⟩
      · rw [I.out ph hph] at h'; cases h'
      · omega
  · intro ph hph q hq
    rcases blank ph q hq with h | ⟨h, h1, h2, h3, h4⟩
    · exact I.far ph hph q h
    · refine ⟨h, ?_⟩
      rcases h.2 with b | b
      · exact (h3 b).2
      · intro _
        rw [b.1, Nat.zero_mod]
        omega
  · intro z1 z2 ph hph q hq
    rcases blank ph q hq with h | ⟨h, h1, h2, h3, h4⟩
    · exact I.idle z1 z2 ph hph q h
    · rcases Nat.lt_or_ge (pageId q) P with b | b
      · have := zero ph q hq h2 b z1 z2
        omega
      · exact ⟨b, (h3 b).1⟩
  · intro a a1 a2 a3
    rw [keep _ (I.old a a1 a2 a3)]
    exact I.old a a1 a2 a3
  · intro i hi
    rw [keep _ (I.read i hi)]
    exact I.read i hi
  · intro p hp
    obtain ⟨t1, t2, t3, t4, t5, t6⟩ := I.temp p hp
    refine ⟨t1, keeps _ _ t2, t3, t4, t5, ?_⟩
    intro i hi hne q hq hq2
    rcases blank _ q hq with h | ⟨h, _⟩
    · exact t6 i hi hne q h hq2
    · rcases h.2 with b | b <;> omega

/-- With no temporary page, the next one may go to the start of the area. -/
theorem RImg.restart (I : RImg c P ps S fr none file) (h : ps.length < S) : RImg c P ps S 0 none file :=
  ⟨I.lt, I.ids, I.cnt, I.dvd, I.lo, I.hi, Nat.zero_le _, by omega, I.live, I.junk, I.mine, I.first,
    fun a a1 a2 a3 => I.dead a a1 (by omega) a3, I.out, I.far, I.idle, I.old, by omega, by simp, by simp⟩

/-- Where the next temporary page goes. -/
def nextOff (c : Cfg) (fr : Nat) : Nat := if fr = 2 * c.B then 0 else fr

/-- Writing a temporary page. -/
theorem RImg.tmp (G : RlcGeo c) (I : RImg c P ps S fr t file) {p : Page} (hid : pageId p = ps.length)
    (hc : 0 < pageCount p ∧ pageCount p ≤ c.maxRec) (hlt : ps.length < S)
    (hmore : ∀ p0, t = some p0 → pageCount p0 < pageCount p) (hw : Page.within p c.pageSize) :
    RImg c P ps S (nextOff c fr + 1) (some p) (Spec.applyEv c.eraseFx file (.write ((S + nextOff c fr) % c.N) p)) := by
  have hB := G.B0
  have h4 := G.four
  have hhi := I.hi
  have hfr2 := I.fr2
  have hi2 : nextOff c fr < 2 * c.B := by unfold nextOff; split_ifs <;> omega
  have hi3 : nextOff c fr = 0 ∨ nextOff c fr = fr := by unfold nextOff; split_ifs <;> omega
  generalize nextOff c fr = i at *
  have hsame : ∀ a, ps.length ≤ a → a < ps.length + c.N → a ≠ S + i →
      Spec.applyEv c.eraseFx file (.write ((S + i) % c.N) p) (a % c.N) = file (a % c.N) := by
    intro a a1 a2 a3
    simp only [Spec.applyEv]
    rw [if_neg]
    intro h
    exact a3 (mod_inj_window (by omega) (by omega) h)
  have hback : ∀ l, l < ps.length → ps.length ≤ l + c.N → l + c.N ≠ S + i →
      Spec.applyEv c.eraseFx file (.write ((S + i) % c.N) p) (l % c.N) = file (l % c.N) := by
    intro l l1 l2 l3
    rw [← Nat.add_mod_right l c.N]
    exact hsame _ l2 (by omega) l3
  have hnew : Spec.applyEv c.eraseFx file (.write ((S + i) % c.N) p) ((S + i) % c.N) = some p := by
    simp [Spec.applyEv]
  have hmod : ps.length % c.N ≠ (S + i) % c.N := by
    intro h
    have := mod_inj_window (by omega) (by omega) h
    omega
  have hcase : ∀ a, ps.length ≤ a → a < S + 2 * c.B → ∀ q,
      Spec.applyEv c.eraseFx file (.write ((S + i) % c.N) p) (a % c.N) = some q →
      (a = S + i ∧ q = p) ∨ (a ≠ S + i ∧ file (a % c.N) = some q) := by
    intro a a1 a2 q hq
    by_cases h : a = S + i
    · subst h
      rw [hnew] at hq
      cases hq
      exact Or.inl ⟨rfl, rfl⟩
    · rw [hsame a a1 (by omega) h] at hq
      exact Or.inr ⟨h, hq⟩
  have hothers : ∀ a, S ≤ a → a < S + 2 * c.B → ∀ q, file (a % c.N) = some q → pageId q = ps.length → pageCount q < pageCount p := by
    intro a a1 a2 q hq hq2
    have hm : t ≠ none := by
      rcases I.mine a (by omega) a2 q hq hq2 with h | h
      · exact h.2.2
      · omega
    obtain ⟨p0, hp0⟩ := Option.ne_none_iff_exists'.mp hm
    obtain ⟨t1, t2, t3, t4, t5, t6⟩ := I.temp p0 hp0
    have := hmore p0 hp0
    by_cases e : a = S + (fr - 1)
    · subst e
      rw [t2] at hq
      cases hq
      exact this
    · have := t6 (a - S) (by omega) (by omega) q (by rw [show S + (a - S) = a by omega]; exact hq) hq2
      omega
  refine ⟨I.lt, I.ids, I.cnt, I.dvd, I.lo, I.hi, by omega, by omega, ?_, ?_, ?_, ?_, ?_, ?_, ?_, by simp, ?_, ?_, ?_,
    fun p' hp' => (by cases hp'; exact hw)⟩
  · intro l h hl
    rw [hback l h (by omega) (by omega)]
    exact I.live l h hl
  · intro a a1 a2 q hq
    rcases hcase a a1 a2 q hq with ⟨rfl, rfl⟩ | ⟨_, h⟩
    · exact Or.inr (Or.inr ⟨by omega, by rw [hid]; exact hmod⟩)
    · exact I.junk a a1 a2 q h
  · intro a a1 a2 q hq h'
    rcases hcase a a1 a2 q hq with ⟨rfl, rfl⟩ | ⟨_, h⟩
    · exact Or.inl ⟨hlt, by omega, by simp⟩
    · rcases I.mine a a1 a2 q h h' with this | this
      · exact Or.inl ⟨this.1, this.2.1, by simp⟩
      · exact Or.inr this
  · intro a a1 a2 a3 q hq h5 h6 l hl h7
    rcases hcase a a1 a2 q hq with ⟨rfl, rfl⟩ | ⟨h8, h⟩
    · omega
    · by_cases hx : a < S + i
      · exfalso
        exact I.dead a a1 (by omega) a3 q h ⟨h5, h6⟩
      · rw [hback l hl (by omega) (by omega)]
        exact I.first a a1 a2 a3 q h h5 h6 l hl h7
  · intro a a1 a2 a3 q hq
    rcases hcase a a1 (by omega) q hq with ⟨rfl, rfl⟩ | ⟨h8, h⟩
    · rintro ⟨h5, _⟩; omega
    · exact I.dead a a1 (by omega) a3 q h
  · intro ph hph
    simp only [Spec.applyEv]
    rw [if_neg, I.out ph hph]
    rintro rfl
    have := Nat.mod_lt (S + i) G.N0
    omega
  · intro ph hph q hq
    simp only [Spec.applyEv] at hq
    rw [if_neg] at hq
    · exact I.far ph hph q hq
    · rintro rfl
      have := Nat.mod_le (S + i) c.N
      omega
  · intro a a1 a2 a3
    by_cases h : a = S + i
    · rw [h, hnew]; simp
    · rw [hsame a a2 (by omega) h]
      exact I.old a a1 a2 a3
  · intro j hj
    by_cases h : S + j = S + i
    · rw [h, hnew]; simp
    · rw [hsame _ (by omega) (by omega) h]
      exact I.read j (by omega)
  · intro p' hp'
    cases hp'
    refine ⟨by omega, by rw [Nat.add_sub_cancel]; exact hnew, hid, hc.1, hc.2, ?_⟩
    intro j hj hne q hq hq2
    rcases hcase (S + j) (by omega) (by omega) q hq with ⟨h, _⟩ | ⟨_, h⟩
    · omega
    · exact hothers _ (by omega) (by omega) q h hq2

end

end EDB
