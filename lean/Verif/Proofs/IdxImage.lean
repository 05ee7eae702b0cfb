import Verif.Model.IdxRecover
import Verif.Proofs.IdxScan
import Verif.Proofs.Life
import Verif.Proofs.VarCrash

/-! Helper lemmas: what the index file contains after any prefix of its storage operations. -/

namespace EDB

/-- Erasing leaves all pages as they are (desktop), or marks all of them with page numbers never reached. -/
def EraserX (c : Cfg) (P : Nat) : Prop :=
  (∀ q, c.eraseFx (some q) = some q) ∨ ∀ q, ∃ e, c.eraseFx (some q) = some e ∧ P ≤ pageId e

/-- The storage operations on an index file that has received the pages `ps`: every page is written in its place; a block is erased from the place of
the next page on, once all places are used. -/
inductive IdxLog (c : Cfg) : List Ev → List Page → Prop
  | nil : IdxLog c [] []
  | write {es : List Ev} {ps : List Page} {p : Page} (h : IdxLog c es ps) (hid : pageId p = ps.length) :
      IdxLog c (es ++ [.write (ps.length % c.numIdx) p]) (ps ++ [p])
  | erase {es : List Ev} {ps : List Page} (h : IdxLog c es ps) (hn : c.numIdx ≤ ps.length) :
      IdxLog c (es ++ [.erase (ps.length % c.numIdx) (ps.length % c.numIdx + c.B)]) ps

/-- The first page of the latest round through the file. -/
def lap (N w : Nat) : Nat := (w - 1) / N * N

theorem lap_le (N w : Nat) : lap N w ≤ w - 1 := Nat.div_mul_le_self _ _

theorem lap_mod (N w : Nat) : lap N w % N = 0 := Nat.mul_mod_left _ _

theorem lap_gt {N w : Nat} (hN : 0 < N) (hw : 0 < w) : w ≤ lap N w + N := by
  have h1 := Nat.div_add_mod (w - 1) N
  have h2 := Nat.mod_lt (w - 1) hN
  unfold lap
  rw [Nat.mul_comm] at h1
  omega

theorem lap_mono (N : Nat) {w v : Nat} (h : w ≤ v) : lap N w ≤ lap N v :=
  Nat.mul_le_mul_right _ (Nat.div_le_div_right (by omega))

theorem lap_place {N w l : Nat} (hN : 0 < N) (h1 : lap N w ≤ l) (h2 : l < w) : l % N = l - lap N w := by
  have h3 := lap_gt hN (show 0 < w by omega)
  have h4 := lap_mod N w
  obtain ⟨k, hk⟩ := Nat.dvd_of_mod_eq_zero h4
  have e : l = N * k + (l - lap N w) := by omega
  rw [e, Nat.mul_add_mod, Nat.mod_eq_of_lt (by omega)]
  omega

theorem lap_eq {N w : Nat} (hN : 0 < N) (h : w % N ≠ 0) : lap N w = w / N * N ∧ w % N = w - lap N w := by
  have h1 := Nat.div_add_mod w N
  have h2 := Nat.mod_lt w hN
  have h3 : (w - 1) / N = w / N := by
    have e : w - 1 = N * (w / N) + (w % N - 1) := by omega
    rw [e, Nat.mul_add_div hN, Nat.div_eq_of_lt (show w % N - 1 < N by omega), Nat.add_zero]
  unfold lap
  rw [h3]
  rw [Nat.mul_comm] at h1
  omega

theorem lap_round {N w : Nat} (hN : 0 < N) (hw : 0 < w) (h : w % N = 0) : lap N w = w - N := by
  obtain ⟨k, rfl⟩ := Nat.dvd_of_mod_eq_zero h
  obtain ⟨k, rfl⟩ : ∃ j, k = j + 1 := ⟨k - 1, by
    rcases k with _ | k
    · simp at hw
    · omega⟩
  unfold lap
  have e : N * (k + 1) - 1 = N * k + (N - 1) := by rw [Nat.mul_add]; omega
  rw [e, Nat.mul_add_div hN, Nat.div_eq_of_lt (show N - 1 < N by omega), Nat.add_zero, Nat.mul_add, Nat.mul_comm k N]
  omega

/-- The pages from number `s` on are intact, the older ones are marked as erased. -/
structure IdxImage (c : Cfg) (P : Nat) (ps : List Page) (s : Nat) (file : Nat → Option Page) : Prop where
  le : s ≤ ps.length
  intact : ∀ l (h : l < ps.length), s ≤ l → ps.length ≤ l + c.numIdx → file (l % c.numIdx) = some ps[l]
  marked : ∀ l, l < s → ps.length ≤ l + c.numIdx → ∃ q, file (l % c.numIdx) = some q ∧ P ≤ pageId q
  empty : ∀ i, ps.length ≤ i → i < c.numIdx → file i = none

section
variable {c : Cfg} {P s : Nat} {es : List Ev} {ps : List Page} {file : Nat → Option Page}

theorem IdxLog.ids (h : IdxLog c es ps) : ∀ i (hi : i < ps.length), pageId ps[i] = i := by
  induction h with
  | nil => intro i hi; cases hi
  | @write es ps p h hid ih =>
    intro i hi
    rw [List.length_append, List.length_singleton] at hi
    by_cases h' : i < ps.length
    · rw [List.getElem_append_left h']; exact ih i h'
    · rw [List.getElem_append_right (by omega)]
      simp only [List.getElem_singleton]
      omega
  | erase h hn ih => exact ih

theorem IdxLog.pages (h : IdxLog c es ps) : wrote es = ps := by
  induction h with
  | nil => rfl
  | write h hid ih =>
    unfold wrote at ih ⊢
    rw [writes_append, List.map_append, ih]
    rfl
  | erase h hn ih =>
    unfold wrote at ih ⊢
    rw [writes_append, List.map_append, ih]
    simp [Spec.writes]

theorem IdxLog.take (h : IdxLog c es ps) : ∀ j, ∃ n, n ≤ ps.length ∧ IdxLog c (es.take j) (ps.take n) := by
  have key : ∀ {es : List Ev} {ps qs : List Page} {e : Ev}, (∀ j, ∃ n, n ≤ ps.length ∧ IdxLog c (es.take j) (ps.take n)) →
      IdxLog c (es ++ [e]) (ps ++ qs) → ∀ j, ∃ n, n ≤ (ps ++ qs).length ∧ IdxLog c ((es ++ [e]).take j) ((ps ++ qs).take n) := by
    intro es ps qs e ih h j
    by_cases hj : j ≤ es.length
    · obtain ⟨n, h1, h2⟩ := ih j
      refine ⟨n, by rw [List.length_append]; omega, ?_⟩
      rw [List.take_append_of_le_length hj, List.take_append_of_le_length h1]
      exact h2
    · refine ⟨_, le_refl _, ?_⟩
      rw [List.take_of_length_le (by rw [List.length_append, List.length_singleton]; omega), List.take_length]
      exact h
  induction h with
  | nil => intro j; exact ⟨0, le_refl _, by rw [List.take_nil]; exact .nil⟩
  | write h hid ih => exact key ih (h.write hid)
  | erase h hn ih =>
    have := key (qs := []) ih (by rw [List.append_nil]; exact h.erase hn)
    simpa using this

theorem IdxImage.write (hN : 0 < c.numIdx) (I : IdxImage c P ps s file) (p : Page) :
    IdxImage c P (ps ++ [p]) s (Spec.applyEv c.eraseFx file (.write (ps.length % c.numIdx) p)) := by
  have hlen : (ps ++ [p]).length = ps.length + 1 := by simp
  have hle := I.le
  have hother : ∀ l, l < ps.length → ps.length + 1 ≤ l + c.numIdx → l % c.numIdx ≠ ps.length % c.numIdx := by
    intro l h1 h2 h
    have := mod_inj_window (by omega) (by omega) h
    omega
  refine ⟨by omega, ?_, ?_, ?_⟩
  · intro l h h1 h2
    rw [hlen] at h h2
    simp only [Spec.applyEv]
    by_cases h3 : l < ps.length
    · rw [if_neg (hother l h3 h2), List.getElem_append_left h3]
      exact I.intact l h3 h1 (by omega)
    · have : l = ps.length := by omega
      subst this
      simp
  · intro l h1 h2
    rw [hlen] at h2
    simp only [Spec.applyEv]
    rw [if_neg (hother l (by omega) h2)]
    exact I.marked l h1 (by omega)
  · intro i h1 h2
    rw [hlen] at h1
    simp only [Spec.applyEv]
    rw [if_neg (by rw [Nat.mod_eq_of_lt (by omega)]; omega)]
    exact I.empty i (by omega) h2

theorem IdxImage.eraseSame (hE : ∀ q, c.eraseFx (some q) = some q) (I : IdxImage c P ps s file) (hn : c.numIdx ≤ ps.length) (a b : Nat) :
    IdxImage c P ps s (Spec.applyEv c.eraseFx file (.erase a b)) := by
  refine ⟨I.le, ?_, ?_, fun i h1 h2 => absurd h2 (by omega)⟩
  · intro l h h1 h2
    simp only [Spec.applyEv]
    rw [I.intact l h h1 h2, hE]
    simp
  · intro l h1 h2
    obtain ⟨q, q1, q2⟩ := I.marked l h1 h2
    simp only [Spec.applyEv]
    rw [q1, hE]
    simp [q2]

/-- Erasing marks the pages in front of the next one, up to the end of the file. -/
theorem IdxImage.eraseMark (hN : 0 < c.numIdx) (hB : c.B ≤ c.numIdx) (hE : ∀ q, ∃ e, c.eraseFx (some q) = some e ∧ P ≤ pageId e)
    (I : IdxImage c P ps s file) (hn : c.numIdx ≤ ps.length) :
    ∃ t, IdxImage c P ps t (Spec.applyEv c.eraseFx file (.erase (ps.length % c.numIdx) (ps.length % c.numIdx + c.B))) ∧
      (ps.length % c.numIdx ≠ 0 → s ≤ lap c.numIdx ps.length → t ≤ lap c.numIdx ps.length) := by
  have hle := I.le
  obtain ⟨w, hw⟩ : ∃ w, w = ps.length := ⟨_, rfl⟩
  rw [← hw] at hle hn ⊢
  -- the end of the round to which page `w - numIdx` belongs
  obtain ⟨b, hb⟩ : ∃ b, b = w - w % c.numIdx := ⟨_, rfl⟩
  have hmw := Nat.mod_lt w hN
  have hbm : b % c.numIdx = 0 := by
    have := Nat.div_add_mod w c.numIdx
    rw [show b = c.numIdx * (w / c.numIdx) by omega]
    exact Nat.mul_mod_right _ _
  have hsome : ∀ l, l < w → w ≤ l + c.numIdx → ∃ q, file (l % c.numIdx) = some q ∧ (l < s → P ≤ pageId q) := by
    intro l h1 h2
    by_cases h : s ≤ l
    · exact ⟨_, I.intact l (by omega) h (by omega), fun h' => absurd h (by omega)⟩
    · obtain ⟨q, q1, q2⟩ := I.marked l (by omega) (by omega)
      exact ⟨q, q1, fun _ => q2⟩
  have hpl : ∀ l, l < w → w ≤ l + c.numIdx →
      ((w % c.numIdx ≤ l % c.numIdx ∧ l % c.numIdx < w % c.numIdx + c.B) ↔ l < b ∧ l < w - c.numIdx + c.B) := by
    intro l h1 h2
    obtain ⟨k, hk⟩ := Nat.dvd_of_mod_eq_zero hbm
    by_cases hl : l < b
    · have hk0 : k ≠ 0 := by rintro rfl; omega
      obtain ⟨k, rfl⟩ : ∃ j, k = j + 1 := ⟨k - 1, by omega⟩
      rw [Nat.mul_add, Nat.mul_one] at hk
      have e : l = c.numIdx * k + (l - c.numIdx * k) := by omega
      have e' : l % c.numIdx = l - c.numIdx * k := by
        rw [e, Nat.mul_add_mod, Nat.mod_eq_of_lt (by omega)]
        omega
      rw [e']
      omega
    · have e : l = c.numIdx * k + (l - c.numIdx * k) := by omega
      have e' : l % c.numIdx = l - c.numIdx * k := by
        rw [e, Nat.mul_add_mod, Nat.mod_eq_of_lt (by omega)]
        omega
      rw [e']
      omega
  refine ⟨max s (min b (w - c.numIdx + c.B)), ⟨by omega, ?_, ?_, fun i h1 h2 => absurd h2 (by omega)⟩, ?_⟩
  · intro l h h1 h2
    simp only [Spec.applyEv]
    rw [if_neg (fun hh => by
      have := (hpl l (by omega) (by omega)).mp hh
      omega)]
    exact I.intact l h (by omega) h2
  · intro l h1 h2
    obtain ⟨q, q1, q2⟩ := hsome l (by omega) (by omega)
    simp only [Spec.applyEv]
    by_cases hh : w % c.numIdx ≤ l % c.numIdx ∧ l % c.numIdx < w % c.numIdx + c.B
    · rw [if_pos hh, q1]
      exact hE q
    · rw [if_neg hh, q1]
      refine ⟨q, rfl, q2 ?_⟩
      have : ¬ (l < b ∧ l < w - c.numIdx + c.B) := fun h => hh ((hpl l (by omega) (by omega)).mpr h)
      omega
  · intro h1 h2
    have := (lap_eq hN h1).2
    have := lap_le c.numIdx w
    omega

/-- The file after any such sequence of operations, unless the last one erased the first block. -/
theorem IdxLog.image (hN : 0 < c.numIdx) (hB : c.B ≤ c.numIdx) (hE : EraserX c P) (h : IdxLog c es ps) :
    ∃ s, IdxImage c P ps s (Spec.image c.eraseFx es) ∧
      (((∀ hi, es.getLast? ≠ some (.erase 0 hi)) ∨ ∀ q, c.eraseFx (some q) = some q) → s ≤ lap c.numIdx ps.length) := by
  rcases hE with hE | hE
  · refine ⟨0, ?_, fun _ => Nat.zero_le _⟩
    induction h with
    | nil => exact ⟨le_refl _, by simp, by simp, fun _ _ _ => rfl⟩
    | write h hid ih => rw [image_snoc]; exact ih.write hN _
    | erase h hn ih => rw [image_snoc]; exact ih.eraseSame hE hn _ _
  · by_cases hid : ∀ q, c.eraseFx (some q) = some q
    · refine ⟨0, ?_, fun _ => Nat.zero_le _⟩
      induction h with
      | nil => exact ⟨le_refl _, by simp, by simp, fun _ _ _ => rfl⟩
      | write h _ ih => rw [image_snoc]; exact ih.write hN _
      | erase h hn ih => rw [image_snoc]; exact ih.eraseSame hid hn _ _
    · suffices ∃ s, IdxImage c P ps s (Spec.image c.eraseFx es) ∧
          (s ≤ lap c.numIdx ps.length ∨ ps.length % c.numIdx = 0 ∧ ∃ hi, es.getLast? = some (.erase 0 hi)) by
        obtain ⟨s, I, h1⟩ := this
        refine ⟨s, I, ?_⟩
        rintro (h2 | h2)
        · rcases h1 with h1 | ⟨_, hi, h1⟩
          · exact h1
          · exact absurd h1 (h2 hi)
        · exact absurd h2 hid
      induction h with
      | nil => exact ⟨0, ⟨le_refl _, by simp, by simp, fun _ _ _ => rfl⟩, Or.inl (Nat.zero_le _)⟩
      | @write es ps p h _ ih =>
        obtain ⟨s, I, h1⟩ := ih
        refine ⟨s, by rw [image_snoc]; exact I.write hN _, Or.inl ?_⟩
        rw [List.length_append, List.length_singleton]
        rcases h1 with h1 | ⟨h1, _⟩
        · have := lap_mono c.numIdx (show ps.length ≤ ps.length + 1 by omega)
          omega
        · have := I.le
          have e : lap c.numIdx (ps.length + 1) = ps.length := by
            unfold lap
            rw [Nat.add_sub_cancel]
            have := Nat.div_add_mod ps.length c.numIdx
            rw [Nat.mul_comm] at this
            omega
          omega
      | @erase es ps h hn ih =>
        obtain ⟨s, I, h1⟩ := ih
        obtain ⟨t, I', h2⟩ := I.eraseMark hN hB hE hn
        refine ⟨t, by rw [image_snoc]; exact I', ?_⟩
        by_cases h0 : ps.length % c.numIdx = 0
        · refine Or.inr ⟨h0, ps.length % c.numIdx + c.B, ?_⟩
          rw [List.getLast?_append]
          simp [h0]
        · rcases h1 with h1 | ⟨h1, _⟩
          · exact Or.inl (h2 h0 h1)
          · exact absurd h1 h0

end

end EDB
