import Verif.Model.OpenClose
import Verif.Proofs.DemoOk

/-!
# C74: opening and closing the files of a table
-/

namespace EDB

namespace Spec

/-- The files a configuration uses. -/
def usedFile (p : OpenPar) : FileId → Bool
  | .data => true
  | .idx => p.useIndex
  | .var => p.useVar

/-- The number of open streams among those of the table. -/
def openStreams (h : FileId → Bool) : Nat := (h .data).toNat + (h .idx).toNat + (h .var).toNat

end Spec

section
variable {p : OpenPar} {may : FileId → FMode → Bool} {w : OpenFound} {ptr : Ptrs} {s : Disk}

theorem FileId.set_same {α : Type} (f : FileId) (g : FileId → α) (v : α) : f.set g v f = v := if_pos rfl

theorem fileOpen_spec (f : FileId) (m : FMode) : ∃ b, (fileOpen may s f m).2 = b ∧ (fileOpen may s f m).1.handle = f.set s.handle b ∧
    (fileOpen may s f m).1.live = s.live + b.toNat ∧ (fileOpen may s f m).1.content = if b = true ∧ m = .wPlus then f.set s.content (some []) else s.content := by
  cases m with
  | wPlus =>
    by_cases h : may f .wPlus = true
    · exact ⟨true, by simp [fileOpen, h], by simp [fileOpen, h], by simp [fileOpen, h], by simp [fileOpen, h]⟩
    · exact ⟨false, by simp [fileOpen, h], by simp [fileOpen, h], by simp [fileOpen, h], by simp [fileOpen, h]⟩
  | rPlus =>
    by_cases h : (may f .rPlus && (s.content f).isSome) = true
    · exact ⟨true, by simp only [fileOpen, if_pos h], by simp only [fileOpen, if_pos h], by simp only [fileOpen, if_pos h]; rfl, by simp only [fileOpen, if_pos h]; simp⟩
    · exact ⟨false, by simp only [fileOpen, if_neg h], by simp only [fileOpen, if_neg h], by simp only [fileOpen, if_neg h]; rfl, by simp only [fileOpen, if_neg h]; simp⟩

/-- A step that opens the file `f`, or fails to. -/
structure OpenedOne (f : FileId) (s s' : Disk) (b : Bool) : Prop where
  handle : ∀ g, s'.handle g = if g = f then b else s.handle g
  live : s'.live = s.live + b.toNat
  content : ∀ g, g ≠ f → s'.content g = s.content g
  file : s'.content f = s.content f ∨ s'.content f = some []

theorem opened_fileOpen (f : FileId) (m : FMode) : OpenedOne f s (fileOpen may s f m).1 (fileOpen may s f m).2 := by
  obtain ⟨b, h1, h2, h3, h4⟩ := fileOpen_spec (may := may) (s := s) f m
  rw [h1]
  refine ⟨fun g => by rw [h2]; rfl, h3, fun g hg => ?_, ?_⟩
  · rw [h4]
    split_ifs
    · exact if_neg hg
    · rfl
  · rw [h4]
    split_ifs
    · exact Or.inr (if_pos rfl)
    · exact Or.inl rfl

theorem OpenedOne.none (f : FileId) (h : s.handle f = false) : OpenedOne f s s false :=
  ⟨fun g => by split_ifs with e <;> simp_all, by simp, fun _ _ => rfl, Or.inl rfl⟩

theorem OpenedOne.again {f : FileId} {s s1 s2 : Disk} {b : Bool} (h1 : OpenedOne f s s1 false) (h2 : OpenedOne f s1 s2 b) : OpenedOne f s s2 b := by
  refine ⟨fun g => ?_, by rw [h2.live, h1.live]; simp, fun g hg => by rw [h2.content g hg, h1.content g hg], ?_⟩
  · rw [h2.handle, h1.handle]
    split_ifs <;> rfl
  · rcases h2.file with h | h
    · rw [h]; exact h1.file
    · exact Or.inr h

theorem openData_spec (h : s.handle .data = false) : ∃ b, OpenedOne .data s (openData p may w ptr s).1 b ∧
    ((openData p may w ptr s).2 = 0 → b = true) := by
  unfold openData
  split_ifs with h1 h2
  · refine ⟨_, opened_fileOpen .data .wPlus, ?_⟩
    by_cases hb : (fileOpen may s .data .wPlus).2 = true <;> simp [hb]
  · refine ⟨_, opened_fileOpen .data .rPlus, ?_⟩
    by_cases hb : (fileOpen may s .data .rPlus).2 = true <;> simp [hb]
  · exact ⟨false, OpenedOne.none _ h, by simp⟩

theorem openIndex_spec (h : s.handle .idx = false) : ∃ b, OpenedOne .idx s (openIndex p may ptr s).1 b ∧
    ((openIndex p may ptr s).2 = 0 → b = true ∧ ptr .idx = true) := by
  unfold openIndex
  by_cases h1 : (p.idxOk && ptr .idx) = true
  · rw [if_pos h1]
    have hp : ptr .idx = true := by simp_all
    cases hr : p.reset with
    | true =>
      simp only [if_true]
      refine ⟨_, opened_fileOpen .idx .wPlus, ?_⟩
      by_cases hb : (fileOpen may s .idx .wPlus).2 = true <;> simp [hb, hp]
    | false =>
      simp only [Bool.false_eq_true, if_false]
      have o := opened_fileOpen (may := may) (s := s) .idx .rPlus
      cases hb : (fileOpen may s .idx .rPlus).2 with
      | true =>
        rw [hb] at o
        simp only [if_true]
        exact ⟨true, o, fun _ => ⟨rfl, hp⟩⟩
      | false =>
        rw [hb] at o
        simp only [Bool.false_eq_true, if_false]
        refine ⟨_, o.again (opened_fileOpen .idx .wPlus), ?_⟩
        by_cases hb : (fileOpen may (fileOpen may s .idx .rPlus).1 .idx .wPlus).2 = true <;> simp [hb, hp]
  · rw [if_neg h1]
    exact ⟨false, OpenedOne.none _ h, by simp⟩

theorem openVar_spec (h : s.handle .var = false) (hp : ptr .var = true) : ∃ s' r b, openVar p may w ptr s = .ok (s', r) ∧ OpenedOne .var s s' b ∧
    (r = 0 → b = true) := by
  unfold openVar
  rw [if_pos hp]
  cases hr : (!p.reset && (w.pages || p.rlc)) with
  | false =>
    simp only [Bool.false_eq_true, if_false]
    refine ⟨_, _, _, rfl, opened_fileOpen .var .wPlus, ?_⟩
    by_cases hb : (fileOpen may s .var .wPlus).2 = true <;> simp [hb]
  | true =>
    simp only [if_true]
    have o := opened_fileOpen (may := may) (s := s) .var .rPlus
    cases hb : (fileOpen may s .var .rPlus).2 with
    | true =>
      rw [hb] at o
      simp only [if_true]
      exact ⟨_, _, true, rfl, o, fun _ => rfl⟩
    | false =>
      rw [hb] at o
      simp only [Bool.false_eq_true, if_false]
      refine ⟨_, _, _, rfl, o.again (opened_fileOpen .var .wPlus), ?_⟩
      by_cases hb : (fileOpen may (fileOpen may s .var .rPlus).1 .var .wPlus).2 = true <;> simp [hb]

/-- C74, opening.  With no stream open, `embedDBInit` does not cause undefined behaviour if a file for variable data is given when the table uses one
(`C74_false_no_var`).  If it returns 0 exactly the files used have an open stream and are known to the table; whatever it returns, no stream is
lost, and files are only changed by making them empty. -/
theorem C74_open_partial (p : OpenPar) (may : FileId → FMode → Bool) (w : OpenFound) (ptr : Ptrs) (s : Disk) (h : ∀ f, s.handle f = false)
    (hv : p.useVar = true → ptr .var = true) :
    ∃ s' ptr' r, openAll p may w ptr s = .ok (s', ptr', r) ∧ s'.live = s.live + Spec.openStreams s'.handle ∧
      (r = 0 → ∀ f, s'.handle f = Spec.usedFile p f ∧ ptr' f = Spec.usedFile p f) ∧
      (∀ f, s'.handle f = true → Spec.usedFile p f = true) ∧
      ∀ f, s'.content f = s.content f ∨ (s'.content f = some [] ∧ Spec.usedFile p f = true) := by
  unfold openAll
  by_cases he : p.early = true
  swap
  · rw [if_neg he]
    exact ⟨_, _, _, rfl, by simp [Spec.openStreams, h], by simp, by simp [h], fun f => Or.inl rfl⟩
  rw [if_pos he]
  obtain ⟨b1, o1, r1⟩ := openData_spec (p := p) (may := may) (w := w) (ptr := ptr) (h .data)
  revert o1 r1
  generalize hS1 : openData p may w ptr s = S1
  obtain ⟨s1, q1⟩ := S1
  intro o1 r1
  simp only at o1 r1 ⊢
  have c1 : ∀ f, s1.content f = s.content f ∨ (s1.content f = some [] ∧ Spec.usedFile p f = true) := by
    intro f
    cases f with
    | data => rcases o1.file with g | g
              · exact Or.inl g
              · exact Or.inr ⟨g, rfl⟩
    | idx => exact Or.inl (o1.content _ (by decide))
    | var => exact Or.inl (o1.content _ (by decide))
  have hd1 : s1.handle .data = b1 := by rw [o1.handle]; rfl
  have hi1 : s1.handle .idx = false := by rw [o1.handle, if_neg (by decide)]; exact h _
  have hv1 : s1.handle .var = false := by rw [o1.handle, if_neg (by decide)]; exact h _
  by_cases hq1 : q1 = 0
  swap
  · rw [if_pos hq1]
    refine ⟨_, _, _, rfl, by rw [o1.live]; simp [Spec.openStreams, hd1, hi1, hv1], fun g => absurd g hq1, ?_, c1⟩
    intro f
    cases f <;> simp [hi1, hv1, Spec.usedFile]
  rw [if_neg (by simpa using hq1)]
  have hb1 := r1 hq1
  subst hb1
  -- the index file
  obtain ⟨s2, ptr2, q2, b2, E2, o2, r2, u2, hpv2, hpd2⟩ : ∃ s2 ptr2 q2 b2,
      (if p.useIndex = true then ((openIndex p may ptr s1).1, ptr, (openIndex p may ptr s1).2) else (s1, FileId.idx.set ptr false, 0)) = (s2, ptr2, q2) ∧
      OpenedOne .idx s1 s2 b2 ∧ (q2 = 0 → b2 = p.useIndex ∧ ptr2 .idx = p.useIndex) ∧ (b2 = true → p.useIndex = true) ∧ ptr2 .var = ptr .var ∧
      ptr2 .data = ptr .data := by
    cases hi : p.useIndex with
    | true =>
      obtain ⟨b2, o2, r2⟩ := openIndex_spec (p := p) (may := may) (ptr := ptr) hi1
      exact ⟨_, _, _, b2, rfl, o2, fun g => ⟨(r2 g).1, (r2 g).2⟩, fun _ => rfl, rfl, rfl⟩
    | false => exact ⟨_, _, _, false, rfl, OpenedOne.none _ hi1, fun _ => ⟨rfl, if_pos rfl⟩, by simp, if_neg (by decide), if_neg (by decide)⟩
  rw [E2]
  simp only
  have hptr : ptr .data = true := by
    by_contra g
    unfold openData at hS1
    rw [if_neg g] at hS1
    have := congrArg Prod.snd hS1
    simp only at this
    omega
  have hd2 : s2.handle .data = true := by rw [o2.handle, if_neg (by decide)]; exact hd1
  have hi2 : s2.handle .idx = b2 := by rw [o2.handle]; rfl
  have hv2 : s2.handle .var = false := by rw [o2.handle, if_neg (by decide)]; exact hv1
  have c2 : ∀ f, s2.content f = s.content f ∨ (s2.content f = some [] ∧ Spec.usedFile p f = true) := by
    intro f
    cases f with
    | data => rw [o2.content _ (by decide)]; exact c1 _
    | var => rw [o2.content _ (by decide)]; exact c1 _
    | idx =>
      by_cases hb : p.useIndex = true
      · rcases o2.file with g | g
        · rw [g]; exact c1 _
        · exact Or.inr ⟨g, hb⟩
      · rw [if_neg hb] at E2
        have : s1 = s2 := congrArg Prod.fst E2
        rw [← this]
        exact c1 _
  by_cases hq2 : q2 = 0
  swap
  · rw [if_pos hq2]
    refine ⟨_, _, _, rfl, by rw [o2.live, o1.live]; simp only [Spec.openStreams, hd2, hi2, hv2, Bool.toNat_true, Bool.toNat_false]; omega, fun g => absurd g hq2, ?_, c2⟩
    intro f
    cases f
    · simp [Spec.usedFile]
    · rw [hi2]; exact u2
    · simp [hv2]
  rw [if_neg (by simpa using hq2)]
  obtain ⟨hb2, hp2⟩ := r2 hq2
  by_cases huv : p.useVar = true
  swap
  · have huv' : p.useVar = false := by simpa using huv
    rw [if_neg huv]
    refine ⟨_, _, _, rfl, by rw [o2.live, o1.live]; simp only [Spec.openStreams, hd2, hi2, hv2, Bool.toNat_true, Bool.toNat_false]; omega, fun _ f => ?_, ?_, c2⟩
    · cases f
      · exact ⟨hd2, by rw [FileId.set, if_neg (by decide), hpd2]; exact hptr⟩
      · exact ⟨by rw [hi2]; exact hb2, by rw [FileId.set, if_neg (by decide)]; exact hp2⟩
      · exact ⟨by rw [hv2]; exact huv'.symm, by rw [FileId.set, if_pos rfl]; exact huv'.symm⟩
    · intro f
      cases f
      · simp [Spec.usedFile]
      · rw [hi2]; exact u2
      · simp [hv2]
  rw [if_pos huv]
  by_cases hvo : p.varOk = true
  swap
  · rw [if_neg hvo]
    refine ⟨_, _, _, rfl, by rw [o2.live, o1.live]; simp only [Spec.openStreams, hd2, hi2, hv2, Bool.toNat_true, Bool.toNat_false]; omega, by simp, ?_, c2⟩
    intro f
    cases f
    · simp [Spec.usedFile]
    · rw [hi2]; exact u2
    · simp [hv2]
  rw [if_pos hvo]
  obtain ⟨s3, q3, b3, E3, o3, r3⟩ := openVar_spec (p := p) (may := may) (w := w) (ptr := ptr2) hv2 (by rw [hpv2]; exact hv huv)
  rw [E3]
  have hd3 : s3.handle .data = true := by rw [o3.handle, if_neg (by decide)]; exact hd2
  have hi3 : s3.handle .idx = b2 := by rw [o3.handle, if_neg (by decide)]; exact hi2
  have hv3 : s3.handle .var = b3 := by rw [o3.handle]; rfl
  refine ⟨s3, ptr2, q3, rfl, by rw [o3.live, o2.live, o1.live]; simp only [Spec.openStreams, hd3, hi3, hv3, Bool.toNat_true]; omega, fun g f => ?_, ?_, ?_⟩
  · cases f
    · exact ⟨hd3, by rw [hpd2]; exact hptr⟩
    · exact ⟨by rw [hi3]; exact hb2, hp2⟩
    · exact ⟨by rw [hv3, r3 g]; exact huv.symm, by rw [hpv2, hv huv]; exact huv.symm⟩
  · intro f
    cases f
    · simp [Spec.usedFile]
    · rw [hi3]; exact u2
    · intro _; exact huv
  · intro f
    cases f with
    | data => rw [o3.content _ (by decide)]; exact c2 _
    | idx => rw [o3.content _ (by decide)]; exact c2 _
    | var =>
      rcases o3.file with g | g
      · rw [g]; exact c2 _
      · exact Or.inr ⟨g, huv⟩

theorem openAll_stages {s' : Disk} {ptr' : Ptrs} {r : Int} (h : openAll p may w ptr s = .ok (s', ptr', r)) :
    (s' = s ∧ r = -1) ∨ ∃ s1 q1, openData p may w ptr s = (s1, q1) ∧ ((s' = s1 ∧ r = q1 ∧ q1 ≠ 0) ∨ q1 = 0 ∧ ∃ s2 q2,
      ((p.useIndex = true ∧ openIndex p may ptr s1 = (s2, q2)) ∨ (p.useIndex = false ∧ s2 = s1 ∧ q2 = 0)) ∧
      ((s' = s2 ∧ r = q2 ∧ q2 ≠ 0) ∨ q2 = 0 ∧ ((p.useVar = false ∧ s' = s2 ∧ r = 0) ∨ (p.useVar = true ∧ s' = s2 ∧ r = -1) ∨
        (p.useVar = true ∧ ∃ ptr2, openVar p may w ptr2 s2 = .ok (s', r))))) := by
  unfold openAll at h
  by_cases he : p.early = true
  swap
  · rw [if_neg he] at h
    cases h
    exact Or.inl ⟨rfl, rfl⟩
  rw [if_pos he] at h
  rcases hS : openData p may w ptr s with ⟨s1, q1⟩
  rw [hS] at h
  simp only at h
  refine Or.inr ⟨s1, q1, rfl, ?_⟩
  by_cases h1 : q1 = 0
  swap
  · rw [if_pos h1] at h
    cases h
    exact Or.inl ⟨rfl, rfl, h1⟩
  rw [if_neg (by simpa using h1)] at h
  refine Or.inr ⟨h1, ?_⟩
  obtain ⟨s2, ptr2, q2, E2, H2⟩ : ∃ s2 ptr2 q2,
      (if p.useIndex = true then ((openIndex p may ptr s1).1, ptr, (openIndex p may ptr s1).2) else (s1, FileId.idx.set ptr false, 0)) = (s2, ptr2, q2) ∧
      ((p.useIndex = true ∧ openIndex p may ptr s1 = (s2, q2)) ∨ (p.useIndex = false ∧ s2 = s1 ∧ q2 = 0)) := by
    cases hi : p.useIndex with
    | true => exact ⟨_, _, _, rfl, Or.inl ⟨rfl, rfl⟩⟩
    | false => exact ⟨_, _, _, rfl, Or.inr ⟨rfl, rfl, rfl⟩⟩
  rw [E2] at h
  simp only at h
  refine ⟨s2, q2, H2, ?_⟩
  by_cases h2 : q2 = 0
  swap
  · rw [if_pos h2] at h
    cases h
    exact Or.inl ⟨rfl, rfl, h2⟩
  rw [if_neg (by simpa using h2)] at h
  refine Or.inr ⟨h2, ?_⟩
  by_cases h3 : p.useVar = true
  swap
  · rw [if_neg h3] at h
    cases h
    exact Or.inl ⟨by simpa using h3, rfl, rfl⟩
  rw [if_pos h3] at h
  by_cases h4 : p.varOk = true
  swap
  · rw [if_neg h4] at h
    cases h
    exact Or.inr (Or.inl ⟨h3, rfl, rfl⟩)
  rw [if_pos h4] at h
  cases e : openVar p may w ptr2 s2 with
  | ok x =>
    rw [e] at h
    cases h
    exact Or.inr (Or.inr ⟨h3, _, e⟩)
  | ub => rw [e] at h; cases h
  | fuel => rw [e] at h; cases h

theorem openData_content : (p.reset = false → (openData p may w ptr s).1.content = s.content) ∧
    (p.reset = true → (openData p may w ptr s).2 = 0 → (openData p may w ptr s).1.content .data = some []) ∧
    (p.reset = false → s.content .data = none → (openData p may w ptr s).2 = -1 ∧ (openData p may w ptr s).1.live = s.live) := by
  unfold openData
  by_cases hp : ptr .data = true
  · rw [if_pos hp]
    cases hr : p.reset with
    | true =>
      refine ⟨by simp, fun _ h => ?_, by simp⟩
      obtain ⟨b, h1, h2, h3, h4⟩ := fileOpen_spec (may := may) (s := s) .data .wPlus
      cases b with
      | true => simp only [if_true, h4]; simp [FileId.set]
      | false => simp [h1] at h
    | false =>
      obtain ⟨b, h1, h2, h3, h4⟩ := fileOpen_spec (may := may) (s := s) .data .rPlus
      refine ⟨fun _ => by simp [h4], by simp, fun _ hn => ?_⟩
      simp only [Bool.false_eq_true, if_false]
      simp [fileOpen, hn]
  · rw [if_neg hp]
    simp

theorem openIndex_content : (∀ g, g ≠ .idx → (openIndex p may ptr s).1.content g = s.content g) ∧
    (p.reset = false → (s.content .idx).isSome = true → may .idx .rPlus = true → (openIndex p may ptr s).1.content = s.content) ∧
    (p.reset = true → (openIndex p may ptr s).2 = 0 → (openIndex p may ptr s).1.content .idx = some []) := by
  unfold openIndex
  by_cases hp : (p.idxOk && ptr .idx) = true
  · rw [if_pos hp]
    cases hr : p.reset with
    | true =>
      obtain ⟨b, h1, h2, h3, h4⟩ := fileOpen_spec (may := may) (s := s) .idx .wPlus
      simp only [if_true, Bool.false_eq_true, if_false]
      refine ⟨fun g hg => (opened_fileOpen .idx .wPlus).content g hg, by simp, fun _ h => ?_⟩
      cases b with
      | true => rw [h4]; simp [FileId.set]
      | false => simp [h1] at h
    | false =>
      simp only [Bool.false_eq_true, if_false]
      refine ⟨fun g hg => ?_, fun _ h1 h2 => ?_, by simp⟩
      · by_cases hb : (fileOpen may s .idx .rPlus).2 = true
        · rw [if_pos hb]
          exact (opened_fileOpen .idx .rPlus).content g hg
        · rw [if_neg hb]
          show (fileOpen may (fileOpen may s .idx .rPlus).1 .idx .wPlus).1.content g = _
          rw [(opened_fileOpen .idx .wPlus).content g hg]
          exact (opened_fileOpen .idx .rPlus).content g hg
      · have e : fileOpen may s .idx .rPlus = ({ s with handle := FileId.idx.set s.handle true, live := s.live + 1 }, true) := by
          simp [fileOpen, h1, h2]
        rw [e]
        rfl
  · rw [if_neg hp]
    simp

theorem openVar_content {s' : Disk} {r : Int} (h : openVar p may w ptr s = .ok (s', r)) : (∀ g, g ≠ .var → s'.content g = s.content g) ∧
    (p.reset = false → (s.content .var).isSome = true → may .var .rPlus = true → (w.pages || p.rlc) = true → s'.content = s.content) ∧
    (p.reset = true → r = 0 → s'.content .var = some []) := by
  unfold openVar at h
  by_cases hp : ptr .var = true
  swap
  · rw [if_neg hp] at h; cases h
  rw [if_pos hp] at h
  cases hr : (!p.reset && (w.pages || p.rlc)) with
  | false =>
    rw [hr] at h
    simp only [Bool.false_eq_true, if_false, Res.ok.injEq, Prod.mk.injEq] at h
    obtain ⟨rfl, hr0⟩ := h
    obtain ⟨b, h1, h2, h3, h4⟩ := fileOpen_spec (may := may) (s := s) .var .wPlus
    refine ⟨fun g hg => (opened_fileOpen .var .wPlus).content g hg, fun g1 _ _ g2 => by simp [g1, g2] at hr, fun _ g => ?_⟩
    cases b with
    | true => rw [h4]; simp [FileId.set]
    | false => rw [h1] at hr0; simp only [Bool.false_eq_true, if_false] at hr0; omega
  | true =>
    have hr' : p.reset = false := by simp_all
    rw [hr] at h
    simp only [if_true] at h
    refine ⟨fun g hg => ?_, fun _ h1 h2 _ => ?_, by simp [hr']⟩
    · by_cases hb : (fileOpen may s .var .rPlus).2 = true
      · rw [if_pos hb] at h
        cases h
        exact (opened_fileOpen .var .rPlus).content g hg
      · rw [if_neg hb] at h
        cases h
        rw [(opened_fileOpen .var .wPlus).content g hg]
        exact (opened_fileOpen .var .rPlus).content g hg
    · have e : fileOpen may s .var .rPlus = ({ s with handle := FileId.var.set s.handle true, live := s.live + 1 }, true) := by
        simp [fileOpen, h1, h2]
      rw [e] at h
      cases h
      rfl

/-- C74, opening without EMBEDDB_RESET_DATA keeps the data file, and keeps the other files if they exist and can be opened; for the variable data file a page of
the data file must have been found, or record-level consistency be used. -/
theorem C74_keeps {s' : Disk} {ptr' : Ptrs} {r : Int} (hr : p.reset = false) (h : openAll p may w ptr s = .ok (s', ptr', r)) :
    s'.content .data = s.content .data ∧
    ((s.content .idx).isSome = true → may .idx .rPlus = true → s'.content .idx = s.content .idx) ∧
    ((s.content .var).isSome = true → may .var .rPlus = true → (w.pages || p.rlc) = true → s'.content .var = s.content .var) := by
  rcases openAll_stages h with ⟨rfl, -⟩ | ⟨s1, q1, e1, h⟩
  · exact ⟨rfl, fun _ _ => rfl, fun _ _ _ => rfl⟩
  have c1 : s1.content = s.content := by
    have := (openData_content (p := p) (may := may) (w := w) (ptr := ptr) (s := s)).1 hr
    rwa [e1] at this
  rcases h with ⟨rfl, -⟩ | ⟨-, s2, q2, h2, h⟩
  · rw [c1]; exact ⟨rfl, fun _ _ => rfl, fun _ _ _ => rfl⟩
  have c2 : (∀ g, g ≠ .idx → s2.content g = s.content g) ∧
      ((s.content .idx).isSome = true → may .idx .rPlus = true → s2.content .idx = s.content .idx) := by
    rcases h2 with ⟨-, e2⟩ | ⟨-, rfl, -⟩
    · have := openIndex_content (p := p) (may := may) (ptr := ptr) (s := s1)
      rw [e2, c1] at this
      exact ⟨this.1, fun a b => by rw [this.2.1 hr a b]⟩
    · rw [c1]; exact ⟨fun _ _ => rfl, fun _ _ => rfl⟩
  have fin : s' = s2 → s'.content .data = s.content .data ∧
      ((s.content .idx).isSome = true → may .idx .rPlus = true → s'.content .idx = s.content .idx) ∧
      ((s.content .var).isSome = true → may .var .rPlus = true → (w.pages || p.rlc) = true → s'.content .var = s.content .var) := by
    rintro rfl
    exact ⟨c2.1 _ (by decide), c2.2, fun _ _ _ => c2.1 _ (by decide)⟩
  rcases h with ⟨g, -⟩ | ⟨-, ⟨-, g, -⟩ | ⟨-, g, -⟩ | ⟨-, ptr2, e3⟩⟩
  · exact fin g
  · exact fin g
  · exact fin g
  · have c3 := openVar_content e3
    refine ⟨by rw [c3.1 _ (by decide)]; exact c2.1 _ (by decide), fun a b => by rw [c3.1 _ (by decide)]; exact c2.2 a b, fun a b d => ?_⟩
    have hv : s2.content .var = s.content .var := c2.1 _ (by decide)
    rw [c3.2.1 hr (by rw [hv]; exact a) b d]
    exact hv

/-- C74, opening with EMBEDDB_RESET_DATA empties exactly the files used. -/
theorem C74_reset {s' : Disk} {ptr' : Ptrs} (hr : p.reset = true) (h : openAll p may w ptr s = .ok (s', ptr', 0)) (f : FileId) :
    s'.content f = if Spec.usedFile p f = true then some [] else s.content f := by
  rcases openAll_stages h with ⟨-, g⟩ | ⟨s1, q1, e1, h⟩
  · omega
  rcases h with ⟨-, g, g'⟩ | ⟨g1, s2, q2, h2, h⟩
  · exact absurd g.symm g'
  subst g1
  have c1 := (openData_content (p := p) (may := may) (w := w) (ptr := ptr) (s := s)).2.1 hr (by rw [e1])
  have k1 : ∀ g, g ≠ .data → s1.content g = s.content g := by
    intro g hg
    unfold openData at e1
    by_cases hp : ptr .data = true
    · rw [if_pos hp, if_pos hr] at e1
      have : (fileOpen may s .data .wPlus).1 = s1 := congrArg Prod.fst e1
      rw [← this]
      exact (opened_fileOpen .data .wPlus).content g hg
    · rw [if_neg hp] at e1
      have : s = s1 := congrArg Prod.fst e1
      rw [← this]
  rw [e1] at c1
  rcases h with ⟨-, g, g'⟩ | ⟨g2, h⟩
  · exact absurd g.symm g'
  subst g2
  have c2 : s2.content .data = some [] ∧ (s2.content .idx = if p.useIndex = true then some [] else s.content .idx) ∧
      s2.content .var = s.content .var := by
    rcases h2 with ⟨hi, e2⟩ | ⟨hi, rfl, -⟩
    · have := openIndex_content (p := p) (may := may) (ptr := ptr) (s := s1)
      rw [e2] at this
      exact ⟨by rw [this.1 _ (by decide)]; exact c1, by rw [if_pos hi]; exact this.2.2 hr rfl, by rw [this.1 _ (by decide)]; exact k1 _ (by decide)⟩
    · exact ⟨c1, by rw [hi]; exact k1 _ (by decide), k1 _ (by decide)⟩
  rcases h with ⟨hv, rfl, -⟩ | ⟨-, -, g⟩ | ⟨hv, ptr2, e3⟩
  · cases f
    · exact c2.1
    · exact c2.2.1
    · rw [Spec.usedFile, hv]; exact c2.2.2
  · omega
  · have c3 := openVar_content e3
    cases f
    · rw [c3.1 _ (by decide)]; exact c2.1
    · rw [c3.1 _ (by decide)]; exact c2.2.1
    · rw [Spec.usedFile, hv]; exact c3.2.2 hr rfl

/-- C74, opening without EMBEDDB_RESET_DATA when there is no data file is refused; nothing is created or opened. -/
theorem C74_missing {s' : Disk} {ptr' : Ptrs} {r : Int} (hr : p.reset = false) (hd : s.content .data = none)
    (h : openAll p may w ptr s = .ok (s', ptr', r)) : r = -1 ∧ s'.content = s.content ∧ s'.live = s.live := by
  rcases openAll_stages h with ⟨rfl, g⟩ | ⟨s1, q1, e1, h⟩
  · exact ⟨g, rfl, rfl⟩
  obtain ⟨a, -, b⟩ := openData_content (p := p) (may := may) (w := w) (ptr := ptr) (s := s)
  have a := a hr
  have b := b hr hd
  rw [e1] at a b
  simp only at a b
  rcases h with ⟨rfl, rfl, -⟩ | ⟨g, -⟩
  · exact ⟨b.1, a, b.2⟩
  · omega

/-! ### Sessions -/

/-- One use of the table: `embedDBInit`; if it succeeds, work that leaves the files with the content `work`, and `embedDBClose`; otherwise the client tears
its three file structures down and sets them up again. -/
structure TableSession where
  par : OpenPar
  may : FileId → FMode → Bool
  found : OpenFound
  ptr : Ptrs
  work : FileId → Option (List Byte)

/-- One session. -/
def oneSession (sd : Bool) (s : Disk) (x : TableSession) : Res Disk :=
  (openAll x.par x.may x.found x.ptr s).bind fun (s, ptr, r) =>
    if r = 0 then closeAll sd ptr { s with content := x.work }
    else .ok (tearDown (tearDown (tearDown s .data) .idx) .var)

/-- Any number of sessions. -/
def tableSessions (sd : Bool) : Disk → List TableSession → Res Disk
  | s, [] => .ok s
  | s, x :: xs => (oneSession sd s x).bind fun s => tableSessions sd s xs

theorem oneSession_ok (sd : Bool) (x : TableSession) (h : ∀ f, s.handle f = false) (hv : x.par.useVar = true → x.ptr .var = true) :
    ∃ s', oneSession sd s x = .ok s' ∧ s'.live = s.live ∧ ∀ f, s'.handle f = false := by
  obtain ⟨s1, ptr1, r, e, hl, h0, -, -⟩ := C74_open_partial x.par x.may x.found x.ptr s h hv
  unfold oneSession
  rw [e]
  show ∃ s', (if r = 0 then closeAll sd ptr1 { s1 with content := x.work }
    else .ok (tearDown (tearDown (tearDown s1 .data) .idx) .var)) = .ok s' ∧ _
  by_cases hr : r = 0
  · rw [if_pos hr]
    have h0 := h0 hr
    have hd := h0 .data
    have hi := h0 .idx
    have hw := h0 .var
    simp only [Spec.usedFile] at hd hi hw
    unfold closeAll
    simp only [hd.2, hi.2, hw.2, if_true]
    unfold Spec.openStreams at hl
    rw [hd.1, hi.1, hw.1] at hl
    cases hui : x.par.useIndex <;> cases huv : x.par.useVar <;> rw [hui] at hi hl <;> rw [huv] at hw hl <;>
      simp only [fileClose, hd.1, hi.1, hw.1, FileId.set, if_true, if_false, Bool.false_eq_true, reduceCtorEq, bind, Res.bind] <;>
      refine ⟨_, rfl, ?_, ?_⟩ <;>
      first
        | (intro f; cases f <;> simp [FileId.set, hd.1, hi.1, hw.1])
        | (simp at hl ⊢; omega)
  · rw [if_neg hr]
    refine ⟨_, rfl, ?_, ?_⟩
    · unfold Spec.openStreams at hl
      cases a : s1.handle .data <;> cases b : s1.handle .idx <;> cases d : s1.handle .var <;>
        simp [a, b, d] at hl <;> simp [tearDown, a, b, d, FileId.set] <;> omega
    · intro f
      cases a : s1.handle .data <;> cases b : s1.handle .idx <;> cases d : s1.handle .var <;> cases f <;>
        simp [tearDown, a, b, d, FileId.set]

/-- C74 (`_partial`: see `C74_false_close`, `C74_false_twice`, `C74_false_no_var`): any number of sessions, successful or not, whatever is found in the files and
whichever files can be opened: no undefined behaviour, no stream is left open, and none is closed that the table did not open. -/
theorem C74_sessions_partial (sd : Bool) (xs : List TableSession) : ∀ (s : Disk), (∀ f, s.handle f = false) →
    (∀ x ∈ xs, x.par.useVar = true → x.ptr .var = true) →
    ∃ s', tableSessions sd s xs = .ok s' ∧ s'.live = s.live ∧ ∀ f, s'.handle f = false := by
  induction xs with
  | nil => intro s h _; exact ⟨s, rfl, rfl, h⟩
  | cons x xs ih =>
    intro s h hv
    obtain ⟨s1, e1, l1, h1⟩ := oneSession_ok sd x h (hv x (by simp))
    obtain ⟨s2, e2, l2, h2⟩ := ih s1 h1 fun y hy => hv y (by simp [hy])
    refine ⟨s2, ?_, by rw [l2, l1], h2⟩
    unfold tableSessions
    rw [e1]
    exact e2

/-- C74, when exactly closing the table is undefined on the desktop: when the table knows a file that has no open stream. -/
theorem C74_close_iff (ptr : Ptrs) (s : Disk) : closeAll false ptr s = .ub ↔ ∃ f, ptr f = true ∧ s.handle f = false := by
  have key : (∃ f, ptr f = true ∧ s.handle f = false) ↔ (ptr .data = true ∧ s.handle .data = false) ∨ (ptr .idx = true ∧ s.handle .idx = false) ∨
      (ptr .var = true ∧ s.handle .var = false) := by
    constructor
    · rintro ⟨f, h⟩
      cases f
      · exact Or.inl h
      · exact Or.inr (Or.inl h)
      · exact Or.inr (Or.inr h)
    · rintro (h | h | h)
      · exact ⟨_, h⟩
      · exact ⟨_, h⟩
      · exact ⟨_, h⟩
  rw [key]
  unfold closeAll
  cases a : ptr .data <;> cases b : ptr .idx <;> cases d : ptr .var <;> cases a' : s.handle .data <;> cases b' : s.handle .idx <;>
    cases d' : s.handle .var <;> simp [fileClose, a', b', d', FileId.set, bind, Res.bind]

end

/-! ### Examples -/

/-- A table with all three files: created, used, opened again after the index file was lost; then a configuration that is refused. -/
example : ∃ (xs : List TableSession) (s s' : Disk), (∀ f, s.handle f = false) ∧ (∀ x ∈ xs, x.par.useVar = true → x.ptr .var = true) ∧
    xs.map (fun x => x.par.reset) = [true, false, false] ∧ tableSessions false s xs = .ok s' ∧ s.live = 2 ∧ s'.live = 2 ∧
    s'.content .idx = some [1] ∧ s'.content .var = some [3] := by
  refine ⟨[⟨⟨true, true, true, false, true, true, true⟩, fun _ _ => true, ⟨0, false, 0⟩, fun _ => true, fun f => if f = .idx then none else some [7]⟩,
    ⟨⟨false, true, true, false, true, true, true⟩, fun _ _ => true, ⟨0, true, 0⟩, fun _ => true, fun f => match f with
      | .data => some [2] | .idx => some [1] | .var => some [3]⟩,
    ⟨⟨false, true, true, false, true, false, true⟩, fun _ _ => true, ⟨0, true, 0⟩, fun _ => true, fun _ => none⟩],
    ⟨fun _ => none, fun _ => false, 2⟩, _, by simp, by simp, rfl, rfl, rfl, rfl, rfl, rfl⟩

/-- Opening without reset: the data file and the variable data file keep their content, the index file is created. -/
example : ∃ (p : OpenPar) (s s' : Disk) (ptr' : Ptrs), p.reset = false ∧ p.useIndex = true ∧ p.useVar = true ∧
    openAll p (fun _ _ => true) ⟨0, true, 0⟩ (fun _ => true) s = .ok (s', ptr', 0) ∧
    (s.content .data, s.content .idx, s.content .var) = (some [1], none, some [2]) ∧
    (s'.content .data, s'.content .idx, s'.content .var) = (some [1], some [], some [2]) ∧ s'.live = 3 :=
  ⟨⟨false, true, true, false, true, true, true⟩, ⟨fun f => match f with | .data => some [1] | .idx => none | .var => some [2], fun _ => false, 0⟩,
    _, _, rfl, rfl, rfl, rfl, rfl, rfl, rfl⟩

/-- Opening without reset when there is no data file. -/
example : ∃ (s' : Disk) (ptr' : Ptrs), openAll ⟨false, false, false, false, true, true, true⟩ (fun _ _ => true) ⟨0, false, 0⟩ (fun _ => true)
    ⟨fun _ => none, fun _ => false, 0⟩ = .ok (s', ptr', -1) := ⟨_, _, rfl⟩

/-- Opening with reset. -/
example : ∃ (s' : Disk) (ptr' : Ptrs), openAll ⟨true, false, true, false, true, true, true⟩ (fun _ _ => true) ⟨0, false, 0⟩ (fun _ => true)
    ⟨fun _ => some [1], fun _ => false, 0⟩ = .ok (s', ptr', 0) ∧ s'.content .data = some [] ∧ s'.content .idx = some [1] ∧ s'.content .var = some [] :=
  ⟨_, _, rfl, rfl, rfl, rfl⟩

end EDB
