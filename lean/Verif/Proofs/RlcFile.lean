import Verif.Proofs.RlcLife
import Verif.Proofs.SdFile

/-! Helper lemmas: files of bytes with holes, and record-level consistency on them. -/

namespace EDB

open Spec (Log Op Out Attempt PageStore pagesIn)

/-! ### Files with holes -/

/-- The end of the file after one more operation. -/
def topEv (n : Nat) : Ev → Nat
  | .write ph _ => max n (ph + 1)
  | .erase _ _ => n

/-- The number of pages of the file. -/
def tops (log : List Ev) : Nat := log.foldl topEv 0

/-- A page of equal bytes. -/
def fillPage (sz : Nat) (b : Byte) : Page := fun i => if i < sz then b else 0

/-- The pages written, and the pages between them. -/
def holed (sz : Nat) (b : Byte) (log : List Ev) : Nat → Option Page := fun i =>
  (Spec.image id log i).or (if i < tops log then some (fillPage sz b) else none)

theorem tops_snoc (log : List Ev) (e : Ev) : tops (log ++ [e]) = topEv (tops log) e := by
  unfold tops
  rw [List.foldl_append]
  rfl

theorem tops_append (log evs : List Ev) : tops log ≤ tops (log ++ evs) := by
  induction evs using List.reverseRecOn with
  | nil => rw [List.append_nil]
  | append_singleton l e ih =>
    rw [← List.append_assoc, tops_snoc]
    refine le_trans ih ?_
    cases e with
    | write ph q => exact Nat.le_max_left _ _
    | erase lo hi => exact Nat.le_refl _

theorem tops_write (log : List Ev) (n : Nat) (p : Page) : tops (log ++ [.write n p]) = max (tops log) (n + 1) := tops_snoc _ _

theorem tops_erase (log : List Ev) (lo hi : Nat) : tops (log ++ [.erase lo hi]) = tops log := tops_snoc _ _

theorem image_write (log : List Ev) (n : Nat) (p : Page) (i : Nat) :
    Spec.image id (log ++ [.write n p]) i = if i = n then some p else Spec.image id log i := by
  rw [image_snoc]
  rfl

theorem image_erase (log : List Ev) (lo hi : Nat) : Spec.image id (log ++ [.erase lo hi]) = Spec.image id log := by
  rw [image_snoc]
  funext i
  simp only [Spec.applyEv, id_eq, ite_self]

/-- The last page of the file was written. -/
theorem tops_last (log : List Ev) (h : 0 < tops log) : ∃ q, Spec.image id log (tops log - 1) = some q := by
  induction log using List.reverseRecOn with
  | nil => simp [tops] at h
  | append_singleton l e ih =>
    cases e with
    | write ph q =>
      rw [tops_write, image_write]
      by_cases hp : tops l ≤ ph + 1
      · exact ⟨q, by rw [Nat.max_eq_right hp, Nat.add_sub_cancel, if_pos rfl]⟩
      · rw [Nat.max_eq_left (by omega), if_neg (by omega)]
        exact ih (by omega)
    | erase lo hi =>
      rw [tops_erase] at h ⊢
      rw [image_erase]
      exact ih h

theorem image_none (log : List Ev) {i : Nat} (h : tops log ≤ i) : Spec.image id log i = none := by
  induction log using List.reverseRecOn with
  | nil => rfl
  | append_singleton l e ih =>
    cases e with
    | write ph q =>
      rw [tops_write] at h
      rw [image_write, if_neg (by omega)]
      exact ih (by omega)
    | erase lo hi =>
      rw [tops_erase] at h
      rw [image_erase]
      exact ih h

theorem image_written (log : List Ev) {i : Nat} {q : Page} (h : Spec.image id log i = some q) : Ev.write i q ∈ log := by
  induction log using List.reverseRecOn with
  | nil => cases h
  | append_singleton l e ih =>
    cases e with
    | write ph p =>
      rw [image_write] at h
      by_cases hp : i = ph
      · rw [if_pos hp] at h
        cases h
        subst hp
        simp
      · rw [if_neg hp] at h
        exact List.mem_append_left _ (ih h)
    | erase lo hi =>
      rw [image_erase] at h
      exact List.mem_append_left _ (ih h)

theorem image_unwritten (log : List Ev) {i : Nat} (h : Spec.image id log i = none) (q : Page) : Ev.write i q ∉ log := by
  induction log using List.reverseRecOn with
  | nil => simp
  | append_singleton l e ih =>
    cases e with
    | write ph p =>
      rw [image_write] at h
      by_cases hp : i = ph
      · rw [if_pos hp] at h; cases h
      · rw [if_neg hp] at h
        simp [ih h, hp]
    | erase lo hi =>
      rw [image_erase] at h
      simp [ih h]

theorem rd_fill (sz : Nat) (b : Byte) : rd (fillPage sz b) 0 sz = List.replicate sz b := by
  apply List.ext_getElem?
  intro i
  simp only [rd, List.getElem?_map, List.getElem?_replicate, Nat.zero_add]
  by_cases h : i < sz
  · simp [h, fillPage]
  · simp [h]

theorem within_fill (sz : Nat) (b : Byte) : Page.within (fillPage sz b) sz := by
  intro i hi
  unfold fillPage
  rw [if_neg (by omega)]

/-- The bytes are those of the file with holes. -/
structure BytesOf (sz : Nat) (b : Byte) (f : List Byte) (log : List Ev) : Prop where
  len : f.length = sz * tops log
  pages : pagesIn sz f = storeOf sz (holed sz b log)

theorem holed_write (sz : Nat) (b : Byte) (log : List Ev) (n : Nat) (p : Page) :
    storeOf sz (holed sz b (log ++ [.write n p])) =
      (storeOf sz (holed sz b log)).writeGap (tops log) n (rd p 0 sz) (List.replicate sz b) := by
  funext i
  unfold storeOf holed PageStore.writeGap
  rw [tops_write, image_write]
  by_cases h1 : i = n
  · rw [if_pos h1, if_pos h1]; rfl
  · rw [if_neg h1, if_neg h1]
    by_cases h2 : tops log ≤ i ∧ i < n
    · rw [if_pos h2, image_none log h2.1, Option.none_or, if_pos (by omega)]
      simp [rd_fill]
    · rw [if_neg h2]
      beta_reduce
      by_cases h3 : i < tops log
      · rw [if_pos h3, if_pos (by omega)]
      · rw [if_neg h3, if_neg (by omega)]

theorem holed_erase (sz : Nat) (b : Byte) (log : List Ev) (lo hi : Nat) : holed sz b (log ++ [.erase lo hi]) = holed sz b log := by
  funext i
  unfold holed
  rw [tops_erase, image_erase]

section
variable {sz : Nat} {b : Byte} {f f' : List Byte} {log : List Ev}

theorem BytesOf.nil (h0 : 0 < sz) : BytesOf sz b [] [] := by
  refine ⟨rfl, ?_⟩
  funext i
  unfold pagesIn storeOf holed
  rw [if_neg (by
    have := Nat.mul_le_mul (Nat.le_add_left 1 i) h0
    simp only [List.length_nil]
    omega)]
  rfl

/-- A page is written inside the file, at its end or behind. -/
theorem BytesOf.write (H : BytesOf sz b f log) (h0 : 0 < sz) {n : Nat} {p : Page}
    (h1 : sz * n ≤ f.length → f' = pwrite f (sz * n) (rd p 0 sz))
    (h2 : f.length < sz * n → f' = f ++ List.replicate (sz * n - f.length) b ++ rd p 0 sz) :
    BytesOf sz b f' (log ++ [.write n p]) := by
  have hb : (rd p 0 sz).length = sz := rd_length _ _ _
  have hd : sz ∣ f.length := ⟨_, H.len⟩
  have hk : f.length / sz = tops log := by rw [H.len, Nat.mul_div_cancel_left _ h0]
  rcases Nat.lt_or_ge f.length (sz * n) with h | h
  · obtain ⟨g1, g2⟩ := pagesIn_gap h0 hd h.le hb (h2 h)
    refine ⟨?_, by rw [holed_write, g2, H.pages, hk]⟩
    rw [tops_write, h2 h]
    have hn : tops log < n := by
      rw [H.len] at h
      exact Nat.lt_of_mul_lt_mul_left h
    rw [Nat.max_eq_right (by omega), Nat.mul_succ]
    simp only [List.length_append, List.length_replicate, hb]
    omega
  · have hn : n ≤ tops log := by
      rw [H.len] at h
      exact Nat.le_of_mul_le_mul_left h h0
    have Hp := (holds_pagesIn h0 hd)
    rw [hk, H.pages] at Hp
    have W : PagesHeld sz f' (max (tops log) (n + 1)) ((storeOf sz (holed sz b log)).write n (rd p 0 sz)) := by
      rw [h1 h]
      exact Hp.pwrite hn _ hb
    refine ⟨by rw [tops_write]; exact W.len, ?_⟩
    rw [W.pagesIn h0, holed_write]
    funext i
    unfold PageStore.write PageStore.writeGap
    by_cases e : i = n
    · rw [if_pos e, if_pos e]
    · rw [if_neg e, if_neg e, if_neg (by omega)]

theorem BytesOf.erase (H : BytesOf sz b f log) (lo hi : Nat) : BytesOf sz b f (log ++ [.erase lo hi]) :=
  ⟨by rw [tops_erase]; exact H.len, by rw [holed_erase]; exact H.pages⟩

/-- A file of the operating system. -/
theorem desk_bytes (h0 : 0 < sz) : ∀ {log : List Ev}, (∀ ph q, Ev.write ph q ∈ log → sz * ph < 2 ^ 32) →
    BytesOf sz 0 (desk sz false log) log := by
  intro log
  induction log using List.reverseRecOn with
  | nil => intro _; exact BytesOf.nil h0
  | append_singleton l e ih =>
    intro h
    have ih := ih fun ph q hq => h ph q (by simp [hq])
    rw [desk_snoc]
    cases e with
    | write n p =>
      have hn := h n p (by simp)
      have e1 : deskEv sz false (desk sz false l) (.write n p) = pwrite (desk sz false l) (sz * n) (rd p 0 sz) := by
        show fileWrite (desk sz false l) (rd p 0 sz) n sz = _
        unfold fileWrite byteOff
        rw [Nat.mod_eq_of_lt hn]
      exact ih.write h0 (fun _ => e1) (fun h => by rw [e1, pwrite_end _ _ _ h.le])
    | erase lo hi => exact ih.erase lo hi

theorem sdWrite_bytes (h4 : 4 ∣ sz) {f : SdFile} (hd : sz ∣ f.bytes.length) {n : Nat} (hn : sz * n < 2 ^ 32) {bs : List Byte} :
    (sz * n ≤ f.bytes.length → (sdWrite f bs n sz fun _ => true).1.bytes = pwrite f.bytes (sz * n) bs) ∧
    (f.bytes.length < sz * n → (sdWrite f bs n sz fun _ => true).1.bytes =
      f.bytes ++ List.replicate (sz * n - f.bytes.length) 255 ++ bs) := by
  constructor
  · intro hk
    unfold sdWrite SdFile.seek byteOff
    rw [Nat.mod_eq_of_lt hn]
    simp only [if_neg (Nat.not_lt.mpr hk), if_pos hk, SdFile.put, if_true]
  · intro hk
    obtain ⟨m, hm⟩ : 4 ∣ sz * n - f.bytes.length := Nat.dvd_sub (Dvd.dvd.mul_right h4 n) (h4.trans hd)
    have hs : sz * n = f.bytes.length + 4 * m := by omega
    obtain ⟨j, hj⟩ := sdFill_ok m (sz * n) (f.seek f.bytes.length).1 0 (by omega) (by simp [SdFile.seek])
    have e1 : (f.seek f.bytes.length).1.bytes = f.bytes := by simp [SdFile.seek]
    rw [e1, ← hs] at hj
    unfold sdWrite byteOff
    rw [Nat.mod_eq_of_lt hn]
    have hl : (f.bytes ++ List.replicate (4 * m) (255 : Byte)).length = sz * n := by simp; omega
    simp only [if_pos hk, hj]
    simp only [SdFile.seek, hl, Nat.le_refl, if_true, SdFile.put]
    rw [show sz * n - f.bytes.length = 4 * m by omega]
    conv_lhs => rw [← hl]
    rw [pwrite_append]

/-- A file on an SD card. -/
theorem sd_bytes (h0 : 0 < sz) (h4 : 4 ∣ sz) : ∀ {log : List Ev}, (∀ ph q, Ev.write ph q ∈ log → sz * ph < 2 ^ 32) →
    BytesOf sz 255 (sdRun sz log).bytes log := by
  intro log
  induction log using List.reverseRecOn with
  | nil => intro _; exact BytesOf.nil h0
  | append_singleton l e ih =>
    intro h
    have ih := ih fun ph q hq => h ph q (by simp [hq])
    have e0 : sdRun sz (l ++ [e]) = sdEv sz (sdRun sz l) e := by
      unfold sdRun
      rw [List.foldl_append]
      rfl
    rw [e0]
    cases e with
    | write n p =>
      obtain ⟨g1, g2⟩ := sdWrite_bytes h4 (f := sdRun sz l) ⟨_, ih.len⟩ (h n p (by simp)) (bs := rd p 0 sz)
      exact ih.write h0 g1 g2
    | erase lo hi => exact ih.erase lo hi

/-- The pages as the library reads them. -/
theorem BytesOf.read (H : BytesOf sz b f log) (hw : ∀ ph q, Ev.write ph q ∈ log → Page.within q sz) :
    (fun i => (pagesIn sz f i).map toPage) = holed sz b log := by
  funext i
  rw [H.pages]
  unfold storeOf
  rw [Option.map_map]
  cases e : holed sz b log i with
  | none => rfl
  | some q =>
    have : Page.within q sz := by
      unfold holed at e
      cases e1 : Spec.image id log i with
      | some q' =>
        rw [e1, Option.some_or] at e
        cases e
        exact hw i q (image_written log e1)
      | none =>
        rw [e1, Option.none_or] at e
        by_cases h : i < tops log
        · rw [if_pos h] at e
          cases e
          exact within_fill sz b
        · rw [if_neg h] at e; cases e
    show some (toPage (rd q 0 sz)) = some q
    rw [toPage_rd this]

end

/-! ### Lives on such files -/

section
variable {c : Cfg} {lo K P sz : Nat} {b : Byte} {H : List Attempt}

/-- The file reads as written, and some of the holes as filled. -/
def Showing (sz : Nat) (b : Byte) (v : Dev) : Prop := ∀ ph, v.file ph = Spec.image id v.log ph ∨
  (Spec.image id v.log ph = none ∧ ph < tops v.log ∧ v.file ph = some (fillPage sz b))

theorem Showing.files : ∀ (evs : List Ev) {f g : Nat → Option Page} {n : Nat},
    (∀ ph, f ph = g ph ∨ (g ph = none ∧ ph < n ∧ f ph = some (fillPage sz b))) →
    ∀ ph, evs.foldl (Spec.applyEv id) f ph = evs.foldl (Spec.applyEv id) g ph ∨
      (evs.foldl (Spec.applyEv id) g ph = none ∧ ph < n ∧ evs.foldl (Spec.applyEv id) f ph = some (fillPage sz b)) := by
  intro evs
  induction evs with
  | nil => intro f g n h; exact h
  | cons e t ih =>
    intro f g n h
    simp only [List.foldl_cons]
    refine ih ?_
    intro ph
    cases e with
    | write i q =>
      simp only [Spec.applyEv]
      by_cases hi : ph = i
      · rw [if_pos hi, if_pos hi]; exact Or.inl rfl
      · rw [if_neg hi, if_neg hi]; exact h ph
    | erase lo hi =>
      simp only [Spec.applyEv, id_eq, ite_self]
      exact h ph

theorem Showing.more {v w : Dev} {evs : List Ev} (h : Showing sz b v) (e1 : w.file = evs.foldl (Spec.applyEv id) v.file)
    (e2 : w.log = v.log ++ evs) : Showing sz b w := by
  intro ph
  have hl := tops_append v.log evs
  rw [e1, e2]
  unfold Spec.image
  rw [List.foldl_append]
  rcases Showing.files evs h ph with g | ⟨g1, g2, g3⟩
  · exact Or.inl g
  · exact Or.inr ⟨g1, by omega, g3⟩

theorem Showing.run {v : Dev} (hE : c.eraseFx = id) (h : Showing sz b v) (evs : List Ev) : Showing sz b (devRun c v evs) :=
  h.more (by rw [← hE]; rfl) rfl

theorem Showing.cut {v w : Dev} (hE : c.eraseFx = id) (h : Showing sz b v) {evs : List Ev} (e : w = devRun c v evs) (j : Nat) :
    Showing sz b (cutFrom c v w j) := by
  obtain ⟨e1, e2⟩ := cutFrom_run e j
  exact h.more (by rw [e1, hE]) e2

/-- What fills the holes looks like no page of the table. -/
structure Filler (c : Cfg) (P : Nat) (b : Byte) : Prop where
  blank : toInt8 (pageCount (fillPage c.pageSize b)) ≤ 0
  apart : (P ≤ pageId (fillPage c.pageSize b) ∧ ∀ ph, c.B ∣ ph → pageId (fillPage c.pageSize b) % c.N ≠ ph) ∨
    (pageId (fillPage c.pageSize b) = 0 ∧ pageCount (fillPage c.pageSize b) = 0)

theorem Showing.gaps {v : Dev} {L : Log} (F : Filler c P b) (hE : c.eraseFx = id) (k : RlcKept c P L v)
    (h : Showing c.pageSize b v) : Gaps c P v.file (holed c.pageSize b v.log) := by
  intro ph
  unfold holed
  cases e : Spec.image id v.log ph with
  | some q =>
    left
    rcases h ph with g | ⟨g, _⟩
    · rw [g, e, Option.some_or]
    · rw [e] at g; cases g
  | none =>
    rw [Option.none_or]
    by_cases ht : ph < tops v.log
    · rw [if_pos ht]
      rcases h ph with g | ⟨_, _, g⟩
      · right
        rw [e] at g
        obtain ⟨q', hq'⟩ := tops_last v.log (by omega)
        have hw := k.writes _ _ (image_written _ hq')
        have hne : ph ≠ tops v.log - 1 := by
          intro hh
          rw [← hh, e] at hq'
          cases hq'
        refine ⟨g, by omega, _, rfl, F.blank, ?_⟩
        rcases F.apart with ⟨a1, a2⟩ | ⟨a1, a2⟩
        · exact Or.inl ⟨a1, by rw [hE]; rfl, a2 ph⟩
        · refine Or.inr ⟨a1, a2, tops v.log - 1, q', by omega, ?_, hw.2.1⟩
          rcases h (tops v.log - 1) with g' | ⟨g', _⟩
          · rw [g', hq']
          · rw [hq'] at g'; cases g'
      · exact Or.inl g.symm
    · rw [if_neg ht]
      rcases h ph with g | ⟨_, g, _⟩
      · left; rw [g, e]
      · exact absurd g ht

theorem Showing.holed {v : Dev} : Showing sz b { v with file := holed sz b v.log } := by
  intro ph
  show EDB.holed sz b v.log ph = Spec.image id v.log ph ∨ (_ ∧ _ ∧ EDB.holed sz b v.log ph = _)
  unfold EDB.holed
  cases e : Spec.image id v.log ph with
  | some q => left; rfl
  | none =>
    rw [Option.none_or]
    by_cases ht : ph < tops v.log
    · rw [if_pos ht]; exact Or.inr ⟨rfl, ht, rfl⟩
    · rw [if_neg ht]; exact Or.inl rfl

theorem RlcInv.kept {M : Machine} (h : RlcInv c lo K P H M) : ∃ L, RlcKept c P L M.dev := by
  cases M with
  | on d =>
    obtain ⟨L, ps, fr, t, T, hM, hK⟩ := h
    exact ⟨L, hK⟩
  | off v =>
    obtain ⟨L, s, g, hM, hK⟩ := h
    exact ⟨L, hK⟩

/-- A life on such a file is one of those known already. -/
theorem RlcG.showing (hok : RlcOk c K P) (hB : Bounds c lo K P) (hP2 : 2 ≤ P) (hE : c.eraseFx = id) (F : Filler c P b)
    {G : Dev → (Nat → Option Page) → Prop}
    (hG : ∀ v f' L, RlcKept c P L v → G v f' → f' = holed c.pageSize b v.log) {M : Machine} (h : RlcG c lo K P G M H) :
    Rlc c lo K P M H ∧ Showing c.pageSize b M.dev := by
  induction h with
  | new rb sm => exact ⟨.new rb sm, fun ph => Or.inl rfl⟩
  | @put d d' H k v w h ho hP e ih =>
    obtain ⟨R, S⟩ := ih
    refine ⟨.put R ho hP e, ?_⟩
    obtain ⟨L, ps, fr, t, T, hM, hK⟩ := R.inv hok hB hP2
    obtain ⟨o1, o2, o3, o4⟩ := ho
    obtain ⟨d1, r1, w1, evs, g1, g2, g3⟩ := T.put hok hB o1 o2 o3 (fun r hr => o4 r (mayHold_tried hM r hr)) hP
    rw [e] at g1
    cases g1
    show Showing _ _ d'.dev
    rw [g2]
    exact Showing.run hE S evs
  | @refused d d' H k v w r h ho hP e hr ih =>
    obtain ⟨R, S⟩ := ih
    refine ⟨.refused R ho hP e hr, ?_⟩
    obtain ⟨L, ps, fr, t, T, hM, hK⟩ := R.inv hok hB hP2
    obtain ⟨o1, o2, o3, o4⟩ := ho
    obtain ⟨d1, r1, w1, evs, g1, g2, g3⟩ := T.put hok hB o1 o2 o3 (fun r hr => o4 r (mayHold_tried hM r hr)) hP
    rw [e] at g1
    cases g1
    show Showing _ _ d'.dev
    rw [g2]
    exact Showing.run hE S evs
  | @flush d d' H w h hf hP e ih =>
    obtain ⟨R, S⟩ := ih
    refine ⟨.flush R hf hP e, ?_⟩
    obtain ⟨L, ps, fr, t, T, hM, hK⟩ := R.inv hok hB hP2
    obtain ⟨d1, w1, evs, g1, g2, _⟩ := T.flush hok hB hf hP
    rw [e] at g1
    cases g1
    show Showing _ _ d'.dev
    rw [g2]
    exact Showing.run hE S evs
  | @read d d' H x x' op o h hr e ih =>
    obtain ⟨R, S⟩ := ih
    refine ⟨.read R hr e, ?_⟩
    show Showing _ _ d'.dev
    rw [(read_same hr e).dev]
    exact S
  | @idle d H h ih => exact ⟨.idle ih.1, ih.2⟩
  | @gaps v H f' h g ih =>
    obtain ⟨R, S⟩ := ih
    obtain ⟨L, hK⟩ := (R.inv hok hB hP2).kept
    have hf := hG v f' L hK g
    subst hf
    exact ⟨.gaps R (Showing.gaps F hE hK S), Showing.holed⟩
  | @putCut d d' H k v w r h ho hP e j ih =>
    obtain ⟨R, S⟩ := ih
    refine ⟨.putCut R ho hP e j, ?_⟩
    obtain ⟨L, ps, fr, t, T, hM, hK⟩ := R.inv hok hB hP2
    obtain ⟨o1, o2, o3, o4⟩ := ho
    obtain ⟨d1, r1, w1, evs, g1, g2, g3⟩ := T.put hok hB o1 o2 o3 (fun r hr => o4 r (mayHold_tried hM r hr)) hP
    rw [e] at g1
    cases g1
    exact Showing.cut hE S g2 j
  | @flushCut d d' H w r h hf hP e j ih =>
    obtain ⟨R, S⟩ := ih
    refine ⟨.flushCut R hf hP e j, ?_⟩
    obtain ⟨L, ps, fr, t, T, hM, hK⟩ := R.inv hok hB hP2
    obtain ⟨d1, w1, evs, g1, g2, _⟩ := T.flush hok hB hf hP
    rw [e] at g1
    cases g1
    exact Showing.cut hE S g2 j
  | @reopen v d' H h rb sm e ih =>
    obtain ⟨R, S⟩ := ih
    refine ⟨.reopen R rb sm e, ?_⟩
    obtain ⟨L, s, g, hM, hK⟩ := R.inv hok hB hP2
    obtain ⟨d1, evs, ps, fr, t, g1, g2, T, TR, _⟩ := recover_rlc hok hB hP2 g s rb sm
    rw [e] at g1
    cases g1
    show Showing _ _ d'.dev
    rw [g2]
    exact Showing.run hE S evs
  | @openCut v d' H r h rb sm e j ih =>
    obtain ⟨R, S⟩ := ih
    refine ⟨.openCut R rb sm e j, ?_⟩
    obtain ⟨L, s, g, hM, hK⟩ := R.inv hok hB hP2
    obtain ⟨d1, evs, ps, fr, t, g1, g2, T, TR, _⟩ := recover_rlc hok hB hP2 g s rb sm
    rw [e] at g1
    cases g1
    exact Showing.cut hE S g2 j

end

end EDB
