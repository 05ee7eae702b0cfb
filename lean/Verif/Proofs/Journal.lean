import Verif.Proofs.Recover
import Verif.Model.Life

/-! Helper lemmas: the sequence of storage operations of a table and the images it leaves. -/

namespace EDB

open Spec (Log Op Out)

/-- Erasing leaves a page readable, and its id is either unchanged or beyond all page numbers. -/
def Eraser (c : Cfg) (P : Nat) : Prop :=
  ∀ q, ∃ e, c.eraseFx (some q) = some e ∧ (pageId e = pageId q ∨ P ≤ pageId e)

section
variable {c : Cfg} {lo K P m : Nat} {init : Nat → Option Page} {ps : List Page} {er : Bool} {file : Nat → Option Page}

theorem Image.nil (hv : ∀ ph, c.N ≤ ph → init ph = none) : Image c P init [] false init where
  ids l h := by simp at h
  cnt p h := by simp at h
  live l h := by simp at h
  old l h := by simp at h
  empty _ _ _ := rfl
  out := hv
  mid h := by simp at h

theorem dropped_lower {N B n : Nat} (hB : 0 < B) : n ≤ Spec.dropped N B n + N := by
  unfold Spec.dropped
  split_ifs with h
  · omega
  · have h1 := Nat.div_add_mod (n - N + B - 1) B
    have h2 := Nat.mod_lt (n - N + B - 1) hB
    generalize (n - N + B - 1) / B = q at *
    omega

theorem dropped_mono {N B n m : Nat} (h : n ≤ m) : Spec.dropped N B n ≤ Spec.dropped N B m := by
  unfold Spec.dropped
  split_ifs with h1 h2
  · omega
  · omega
  · omega
  · exact Nat.mul_le_mul_left _ (Nat.div_le_div_right (by omega))

theorem dropped_succ {N B n : Nat} (hB : 0 < B) (hd : B ∣ N) (h1 : N ≤ n) (h2 : n % B = 0) :
    Spec.dropped N B (n + 1) = Spec.dropped N B n + B := by
  rw [dropped_of_dvd hB hd h1 h2]
  by_cases h : B = 1
  · subst h
    rw [dropped_of_dvd hB hd (by omega) (Nat.mod_one _)]
    omega
  · have e : (n + 1) % B = 1 := by
      rw [Nat.add_mod, h2, Nat.zero_add, Nat.mod_mod, Nat.mod_eq_of_lt (by omega)]
    rw [dropped_of_not_dvd hB hd (by omega) (by omega), e]
    omega

theorem Image.write (hB : 0 < c.B) (hd : c.B ∣ c.N) (hN : 0 < c.N) (I : Image c P init ps er file) {p : Page}
    (hid : pageId p = ps.length) (hcnt : 0 < pageCount p ∧ pageCount p ≤ c.maxRec) :
    Image c P init (ps ++ [p]) false (Spec.applyEv c.eraseFx file (.write (ps.length % c.N) p)) := by
  have hlen : (ps ++ [p]).length = ps.length + 1 := by simp
  have hother : ∀ l, l < ps.length → ps.length + 1 ≤ l + c.N → l % c.N ≠ ps.length % c.N := by
    intro l h1 h2 h
    have := mod_inj_window (by omega) (by omega) h
    omega
  refine ⟨?_, ?_, ?_, ?_, ?_, ?_, by simp⟩
  · intro l h
    rcases Nat.lt_or_ge l ps.length with h1 | h1
    · rw [List.getElem_append_left h1]; exact I.ids l h1
    · have : l = ps.length := by omega
      subst this
      simp [hid]
  · intro q hq
    rcases List.mem_append.mp hq with h | h
    · exact I.cnt q h
    · rw [List.mem_singleton.mp h]; exact hcnt
  · intro l h hl
    simp only [hlen, Bool.false_eq_true, if_false, Nat.add_zero] at hl
    simp only [Spec.applyEv]
    rcases Nat.lt_or_ge l ps.length with h1 | h1
    · have h2 := dropped_lower (N := c.N) (n := ps.length + 1) hB
      rw [if_neg (hother l h1 (by omega)), List.getElem_append_left h1]
      apply I.live l h1
      by_cases he : er = true
      · obtain ⟨m1, m2⟩ := I.mid he
        rw [if_pos he, ← dropped_succ hB hd m1 m2]; exact hl
      · rw [if_neg he]
        have := dropped_mono (N := c.N) (B := c.B) (show ps.length ≤ ps.length + 1 by omega)
        omega
    · have : l = ps.length := by omega
      subst this
      simp
  · intro l h1 h2
    rw [hlen] at h1 h2
    simp only [Spec.applyEv]
    rcases Nat.lt_or_ge l ps.length with h3 | h3
    · rw [if_neg (hother l h3 h2)]
      exact I.old l h3 (by omega)
    · have : l = ps.length := by omega
      subst this
      exact ⟨p, by simp, Or.inl hid⟩
  · intro h ph hph
    rw [hlen] at h hph
    simp only [Spec.applyEv]
    rw [if_neg (by rw [Nat.mod_eq_of_lt (by omega)]; omega)]
    exact I.empty (by omega) ph (by omega)
  · intro ph hph
    simp only [Spec.applyEv]
    have := Nat.mod_lt ps.length hN
    rw [if_neg (by omega)]
    exact I.out ph hph

theorem block_end {N B n : Nat} (hd : B ∣ N) (hN : 0 < N) (h : n % B = 0) : n % N + B ≤ N := by
  obtain ⟨j, rfl⟩ := hd
  obtain ⟨k, rfl⟩ := Nat.dvd_of_mod_eq_zero h
  have hj : 0 < j := Nat.pos_of_mul_pos_left hN
  rw [Nat.mul_mod_mul_left]
  have := Nat.mul_le_mul_left B (Nat.mod_lt k hj)
  rw [Nat.mul_succ] at this
  exact this

theorem Image.erase (hB : 0 < c.B) (hd : c.B ∣ c.N) (hN : 0 < c.N) (hE : Eraser c P) (I : Image c P init ps er file)
    (h1 : c.N ≤ ps.length) (h2 : ps.length % c.B = 0) :
    Image c P init ps true (Spec.applyEv c.eraseFx file (.erase (ps.length % c.N) (ps.length % c.N + c.B))) := by
  have hend := block_end hd hN h2
  refine ⟨I.ids, I.cnt, ?_, ?_, ?_, ?_, fun _ => ⟨h1, h2⟩⟩
  · intro l h hl
    rw [if_pos rfl, dropped_of_dvd hB hd h1 h2] at hl
    simp only [Spec.applyEv]
    rw [if_neg]
    · apply I.live l h
      rw [dropped_of_dvd hB hd h1 h2]
      split_ifs <;> omega
    · rintro ⟨h3, h4⟩
      rw [Nat.mod_eq_sub_mod h1] at h3 h4
      have := block_window hN (by omega) (by omega) h3 h4
      omega
  · intro l h3 h4
    obtain ⟨q, q1, q2⟩ := I.old l h3 h4
    simp only [Spec.applyEv]
    split_ifs
    · obtain ⟨e, e1, e2⟩ := hE q
      rw [q1]
      refine ⟨e, e1, ?_⟩
      rcases e2 with e2 | e2 <;> omega
    · exact ⟨q, q1, q2⟩
  · intro h; omega
  · intro ph hph
    simp only [Spec.applyEv]
    rw [if_neg (by omega)]
    exact I.out ph hph

theorem applyEv_id (hid : ∀ q, c.eraseFx (some q) = some q) {lo hi : Nat} (h : ∀ i, lo ≤ i → i < hi → file i ≠ none) :
    Spec.applyEv c.eraseFx file (.erase lo hi) = file := by
  funext i
  simp only [Spec.applyEv]
  split_ifs with hi
  · cases hf : file i with
    | none => exact absurd hf (h i hi.1 hi.2)
    | some q => exact hid q
  · rfl

/-- The physical pages of a full file are all readable. -/
theorem Image.full (I : Image c P init ps er file) (hN : 0 < c.N) (h : c.N ≤ ps.length) {ph : Nat} (hph : ph < c.N) :
    file ph ≠ none := by
  -- the newest page stored at `ph`
  have e1 := Nat.div_add_mod (ps.length - 1 - ph) c.N
  have e2 := Nat.mod_lt (ps.length - 1 - ph) hN
  obtain ⟨q, q1, _⟩ := I.old (ph + c.N * ((ps.length - 1 - ph) / c.N)) (by omega) (by omega)
  rw [Nat.add_mul_mod_self_left, Nat.mod_eq_of_lt hph] at q1
  rw [q1]; simp

/-! ### Well-formed journals -/

/-- The storage operations a table may have made: page `n` goes to `n % N`; a block may be erased (any number of times)
just before the page that reuses it is written. -/
inductive GoodLog (c : Cfg) : List Ev → Prop
  | nil : GoodLog c []
  | write {log : List Ev} (h : GoodLog c log) (p : Page) (hid : pageId p = (Spec.writes log).length)
      (hc : 0 < pageCount p ∧ pageCount p ≤ c.maxRec) : GoodLog c (log ++ [.write ((Spec.writes log).length % c.N) p])
  | erase {log : List Ev} (h : GoodLog c log) (h1 : c.N ≤ (Spec.writes log).length)
      (h2 : (Spec.writes log).length % c.B = 0) :
      GoodLog c (log ++ [.erase ((Spec.writes log).length % c.N) ((Spec.writes log).length % c.N + c.B)])

theorem take_snoc {α : Type} (l : List α) (e : α) (k : Nat) :
    (l ++ [e]).take k = if k ≤ l.length then l.take k else l ++ [e] := by
  split_ifs with h
  · rw [List.take_append_of_le_length h]
  · rw [List.take_of_length_le]
    simp; omega

theorem GoodLog.take {log : List Ev} (h : GoodLog c log) (k : Nat) : GoodLog c (log.take k) := by
  induction h with
  | nil => simpa using GoodLog.nil
  | write h p hid hc ih =>
    rw [take_snoc]
    split_ifs
    · exact ih
    · exact .write h p hid hc
  | erase h h1 h2 ih =>
    rw [take_snoc]
    split_ifs
    · exact ih
    · exact .erase h h1 h2

/-- Does the journal end in the middle of a page replacement? -/
def endsErase (log : List Ev) : Bool :=
  match log.getLast? with
  | some (.erase _ _) => true
  | _ => false

/-- The pages written, in order. -/
def wrote (log : List Ev) : List Page := (Spec.writes log).map (·.2)

theorem wrote_length (log : List Ev) : (wrote log).length = (Spec.writes log).length := by simp [wrote]

theorem image_snoc (fx : Option Page → Option Page) (log : List Ev) (e : Ev) :
    Spec.image fx (log ++ [e]) = Spec.applyEv fx (Spec.image fx log) e := by
  unfold Spec.image
  rw [List.foldl_append]
  rfl

theorem imageOn_snoc (init : Nat → Option Page) (fx : Option Page → Option Page) (log : List Ev) (e : Ev) :
    Spec.imageOn init fx (log ++ [e]) = Spec.applyEv fx (Spec.imageOn init fx log) e := by
  unfold Spec.imageOn
  rw [List.foldl_append]
  rfl

theorem GoodLog.imageOn (hv : ∀ ph, c.N ≤ ph → init ph = none) (hB : 0 < c.B) (hd : c.B ∣ c.N) (hN : 0 < c.N) (hE : Eraser c P) {log : List Ev}
    (h : GoodLog c log) : Image c P init (wrote log) (endsErase log) (Spec.imageOn init c.eraseFx log) := by
  induction h with
  | nil => exact Image.nil hv
  | write h p hid hc ih =>
    have hw : ∀ (log : List Ev) n p, wrote (log ++ [.write n p]) = wrote log ++ [p] := by
      intro log n p; simp [wrote, writes_append, Spec.writes]
    have he : ∀ (log : List Ev) n p, endsErase (log ++ [.write n p]) = false := by
      intro log n p; simp [endsErase]
    rw [imageOn_snoc, hw, he, ← wrote_length]
    exact ih.write hB hd hN (by rw [hid, wrote_length]) hc
  | erase h h1 h2 ih =>
    have hw : ∀ (log : List Ev) n p, wrote (log ++ [.erase n p]) = wrote log := by
      intro log n p; simp [wrote, writes_append, Spec.writes]
    have he : ∀ (log : List Ev) n p, endsErase (log ++ [.erase n p]) = true := by
      intro log n p; simp [endsErase]
    rw [imageOn_snoc, hw, he]
    rw [← wrote_length] at h1 h2 ⊢
    exact ih.erase hB hd hN hE h1 h2

/-- If erasing changes nothing the image never shows that a block was erased. -/
theorem GoodLog.imageOn_id (hv : ∀ ph, c.N ≤ ph → init ph = none) (hB : 0 < c.B) (hd : c.B ∣ c.N) (hN : 0 < c.N) (hE : ∀ q, c.eraseFx (some q) = some q) {log : List Ev}
    (h : GoodLog c log) : Image c P init (wrote log) false (Spec.imageOn init c.eraseFx log) := by
  induction h with
  | nil => exact Image.nil hv
  | write h p hid hc ih =>
    have hw : ∀ (log : List Ev) n p, wrote (log ++ [.write n p]) = wrote log ++ [p] := by
      intro log n p; simp [wrote, writes_append, Spec.writes]
    rw [imageOn_snoc, hw, ← wrote_length]
    exact ih.write hB hd hN (by rw [hid, wrote_length]) hc
  | @erase log h h1 h2 ih =>
    have hw : ∀ (log : List Ev) n p, wrote (log ++ [.erase n p]) = wrote log := by
      intro log n p; simp [wrote, writes_append, Spec.writes]
    rw [imageOn_snoc, hw]
    rw [← wrote_length] at h1 h2 ⊢
    have hend := block_end hd hN h2
    rw [applyEv_id hE (fun i _ h4 => ih.full hN h1 (by omega))]
    exact ih

theorem GoodLog.torn {log : List Ev} (h : GoodLog c log) (he : endsErase log = true)
    (h0 : (wrote log).length % c.N = 0) : ∃ hi, log.getLast? = some (.erase 0 hi) := by
  cases h with
  | nil => simp [endsErase] at he
  | write h p hid hc => simp [endsErase] at he
  | @erase log h h1 h2 =>
    have hw : wrote (log ++ [.erase ((Spec.writes log).length % c.N) ((Spec.writes log).length % c.N + c.B)]) = wrote log := by
      simp [wrote, writes_append, Spec.writes]
    rw [hw, wrote_length] at h0
    rw [List.getLast?_concat, h0]
    exact ⟨_, rfl⟩

end

end EDB
