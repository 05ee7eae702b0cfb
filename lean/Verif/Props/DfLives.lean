import Verif.Model.DfRun
import Verif.Props.Interfaces
import Verif.Props.Formatted

/-!
# C53: the data file of a table on a dataflash chip shared with other files
-/

namespace EDB

open Spec (Log)

variable {c : Cfg} {lo K P : Nat} {init : Nat → Option Page}

/-- Only pages whose bytes lie within the page size are ever written, whatever the device held before. -/
theorem LifeOn.within {d : Data} {L : Log} (hv : Vacant c init) (hok : c.Ok K) (hB : Bounds c lo K P) (hP32 : P ≤ 2 ^ 32)
    (h127 : c.maxRec ≤ 127) (hN32 : c.N < 2 ^ 32) (hE : Eraser c P) (hs : c.maxErr ≤ 1 ∨ P ≤ c.N) (hP0 : 0 < P)
    (h : LifeOn init c lo K P d L) : InBounds c d := by
  induction h with
  | new rb sm =>
    have F := InBounds.fresh hok rb sm
    exact ⟨⟨F.room.1, F.room.2⟩, F.count, F.buf, by simp [Data.freshOn], by simp [Data.freshOn], hv.out⟩
  | @op d d' L x x' op o h e hput hP ih => exact ih.step hok (fun k v hk => (hput k v hk).2.2.1) e
  | @cut d d' L h k rb sm hz e ih =>
    obtain ⟨J, hlt, m, hm, hd, T⟩ := h.ok hv hok hB hP32 h127 hN32 hE hs hP0
    have hn : d.next = _ := T.sim.next
    obtain ⟨d2, n, g1, g2, g3, g4, g5, g6, g7, g8, g9, g10⟩ := reopenOn_ok hv hok hB hP32 h127 hN32 hE J
      T.sim.sorted T.sim.bound T.sim.full T.cap (by omega) k hz rb sm
    rw [g1] at e
    simp only [Prod.mk.injEq, and_true] at e
    subst e
    have hz' : Spec.recovered c.N c.B n = 0 ∨ c.maxErr ≤ 1 := by
      rcases hs with h | h
      · exact Or.inr h
      · exact Or.inl (recovered_small (by omega))
    have hI := g4.good.imageOn (init := init) hv.out hok.B0 hok.dvd hok.N0 hE
    have R := (g10 hz').1.room
    refine ⟨⟨R.1, R.2⟩, ?_, ?_, ?_, ?_, ?_⟩
    · rw [g8, ← recs_length c, recs_init]; exact Nat.zero_le _
    · rw [g8]; exact within_init hok
    · intro ev hev
      rw [g5] at hev
      exact ih.log ev (List.mem_of_mem_take hev)
    · intro ph p hev
      rw [g5] at hev
      exact ih.pages ph p (List.mem_of_mem_take hev)
    · intro i hi
      rw [g4.file]
      exact hI.out i hi

/-- Files in separate parts of the chip. -/
def DfFile.apart (f g : DfFile) : Prop :=
  g.startPage + g.numPages ≤ 2 ^ 32 ∧ (f.startPage + f.numPages ≤ g.startPage ∨ g.startPage + g.numPages ≤ f.startPage)

/-- Carrying out storage operations of a file and of files apart from it: what the library reads from the file is what its own operations make of
its initial content. -/
theorem dfRun_pages {f : DfFile} {chip : Chip} {sz : Nat} (hf : f.startPage + f.numPages ≤ 2 ^ 32) (ops : List (DfFile × Ev))
    (ha : ∀ o ∈ ops, o.1 = f ∨ f.apart o.1) (hw : ∀ ph p, Ev.write ph p ∈ ofFile f ops → ph < f.numPages ∧ Page.within p sz) :
    f.pages (dfRun sz chip ops) = Spec.imageOn (f.pages chip) id (ofFile f ops) := by
  induction ops using List.reverseRecOn with
  | nil => rfl
  | append_singleton l o ih =>
    have ih := ih (fun o' h => ha o' (by simp [h])) fun ph p h => hw ph p (by
      unfold ofFile at h ⊢
      rw [List.filter_append, List.map_append]
      exact List.mem_append_left _ h)
    obtain ⟨g, e⟩ := o
    have e0 : dfRun sz chip (l ++ [(g, e)]) = dfEv sz (dfRun sz chip l) (g, e) := by unfold dfRun; rw [List.foldl_append]; rfl
    rw [e0]
    by_cases hg : g = f
    · subst hg
      have e1 : ofFile g (l ++ [(g, e)]) = ofFile g l ++ [e] := by unfold ofFile; simp
      rw [e1, Spec.imageOn, List.foldl_append]
      show _ = Spec.applyEv id (Spec.imageOn (g.pages chip) id (ofFile g l)) e
      rw [← ih]
      cases e with
      | erase a b => funext i; simp [dfEv, Spec.applyEv]
      | write ph p =>
        obtain ⟨h1, h2⟩ := hw ph p (by rw [e1]; simp)
        funext i
        have e2 : (g.startPage + ph) % 2 ^ 32 = g.startPage + ph := Nat.mod_eq_of_lt (by omega)
        simp only [dfEv, dfWrite, DfFile.phys, if_neg (show ¬ ph ≥ g.numPages by omega), e2, Spec.applyEv, DfFile.pages]
        by_cases hi : i = ph
        · subst hi; simp [h1, toPage_rd h2]
        · simp [hi]
    · have e1 : ofFile f (l ++ [(g, e)]) = ofFile f l := by unfold ofFile; simp [hg]
      rw [e1, ← ih]
      rcases ha (g, e) (by simp) with h | h
      · exact absurd h hg
      · cases e with
        | erase a b => rfl
        | write ph p =>
          funext i
          obtain ⟨h1, h2⟩ := h
          simp only at h1 h2
          simp only [dfEv, dfWrite, DfFile.phys, DfFile.pages]
          by_cases hp : ph ≥ g.numPages
          · rw [if_pos hp]
          · have e2 : (g.startPage + ph) % 2 ^ 32 = g.startPage + ph := Nat.mod_eq_of_lt (by omega)
            simp only [if_neg hp, e2]
            by_cases hi : i < f.numPages
            · simp only [if_pos hi, if_neg (show ¬ f.startPage + i = g.startPage + ph by omega)]
            · simp only [if_neg hi]

/-- C53 for tables (`_partial`: `Durable` configurations, and what the part of the chip held when the table was created does not look like the table, C65,
`C53_false_reset`).  Whatever happened to the data file of a table on a chip and whatever was written to other files of the chip in the meantime:
the device of the other theorems is what the operations of the table made of its part of the chip; after the first `k` of them the chip answers read
requests as this device does, and reports the next operation as carried out if it is a write. -/
theorem C53_life_partial (D : Durable c lo K P) (hE : c.eraseFx = id) {f : DfFile} {chip : Chip} (hf : f.startPage + f.numPages ≤ 2 ^ 32)
    (hN : f.numPages = c.N) (hv : Vacant c (f.pages chip)) {d : Data} {L : Log} (h : LifeOn (f.pages chip) c lo K P d L) :
    d.dev.file = Spec.imageOn (f.pages chip) id d.dev.log ∧
    ∀ k (ops : List (DfFile × Ev)), (∀ o ∈ ops, o.1 = f ∨ f.apart o.1) → ofFile f ops = d.dev.log.take k →
      (∀ i buf, match Spec.imageOn (f.pages chip) id (d.dev.log.take k) i with
        | some p => (dfRead f (dfRun c.pageSize chip ops) buf i).2 = 1 ∧ toPage (dfRead f (dfRun c.pageSize chip ops) buf i).1 = p
        | none => dfRead f (dfRun c.pageSize chip ops) buf i = (buf, 0)) ∧
      ∀ n p, d.dev.log[k]? = some (Ev.write n p) → (dfWrite f (dfRun c.pageSize chip ops) (rd p 0 c.pageSize) n).2 = 1 := by
  have h32' : P ≤ 2 ^ 32 := by have := D.bounds.pages; omega
  obtain ⟨J, _⟩ := h.ok hv D.ok D.bounds h32' D.recs127 D.file32 D.eraser D.spline D.pos
  have I := h.within hv D.ok D.bounds h32' D.recs127 D.file32 D.eraser D.spline D.pos
  refine ⟨by rw [J.file, hE], fun k ops ha ho => ⟨?_, ?_⟩⟩
  · intro i buf
    have hp := dfRun_pages (sz := c.pageSize) (chip := chip) hf ops ha (by
      intro ph p hm
      rw [ho] at hm
      have hm := List.mem_of_mem_take hm
      exact ⟨by rw [hN]; exact I.log _ hm, I.pages ph p hm⟩)
    rw [ho] at hp
    rw [← hp]
    unfold DfFile.pages dfRead DfFile.phys
    by_cases hi : i < f.numPages
    · have e2 : (f.startPage + i) % 2 ^ 32 = f.startPage + i := Nat.mod_eq_of_lt (by omega)
      simp only [if_pos hi, if_neg (show ¬ i ≥ f.numPages by omega), e2, and_self]
    · simp only [if_neg hi, if_pos (show i ≥ f.numPages by omega)]
  · intro n p hk
    have hm := List.mem_of_getElem? hk
    have h1 : n < f.numPages := by rw [hN]; exact I.log _ hm
    unfold dfWrite
    rw [if_neg (by omega)]

/-! ### Example -/

/-- The storage operations of a file at pages 3 to 6 of a chip, with a write to page 1 of another file at pages 8 and 9 after the first. -/
def sharedOps (log : List Ev) : List (DfFile × Ev) :=
  (log.take 1).map (fun e => ((⟨3, 4⟩ : DfFile), e)) ++ [(⟨8, 2⟩, .write 1 fun _ => 9)] ++ (log.drop 1).map (fun e => ((⟨3, 4⟩ : DfFile), e))

/-- An erased chip: pages 3 to 6 hold the data file of `demo`, pages 8 and 9 another file.  Three inserts and a flush write two pages; meanwhile the
other file is written. -/
example : ∃ (d : Data) (L : Log), Durable demo 0 1000 100 ∧ demo.eraseFx = id ∧ 3 + 4 ≤ 2 ^ 32 ∧ 4 = demo.N ∧
    Vacant demo (DfFile.pages ⟨3, 4⟩ fun _ => List.replicate 26 255) ∧
    LifeOn (DfFile.pages ⟨3, 4⟩ fun _ => List.replicate 26 255) demo 0 1000 100 d L ∧
    (∀ o ∈ sharedOps d.dev.log, o.1 = ⟨3, 4⟩ ∨ DfFile.apart ⟨3, 4⟩ o.1) ∧ ofFile ⟨3, 4⟩ (sharedOps d.dev.log) = d.dev.log.take 2 ∧
    (sharedOps d.dev.log).length = 3 ∧
    pageId (toPage (dfRead ⟨3, 4⟩ (dfRun 26 (fun _ => List.replicate 26 255) (sharedOps d.dev.log)) [] 1).1) = 1 ∧
    (dfRead ⟨8, 2⟩ (dfRun 26 (fun _ => List.replicate 26 255) (sharedOps d.dev.log)) [] 1).1 = List.replicate 26 9 := by
  have hv : Vacant demo (DfFile.pages ⟨3, 4⟩ fun _ => List.replicate 26 255) := by
    refine ⟨fun ph h => if_neg (Nat.not_lt.mpr h), Or.inr fun ph h => ⟨toPage (List.replicate 26 255), if_pos h, ?_, fun h0 => ?_⟩⟩
    · have : toInt8 (pageCount (toPage (List.replicate 26 255))) = -1 := by decide +kernel
      unfold looksValid
      rw [this]
      simp
    · have hid : pageId (toPage (List.replicate 26 255)) = 2 ^ 32 - 1 := by decide +kernel
      have h4 : ph < 4 := h
      rw [hid, show demo.N = 4 from rfl, show demo.B = 2 from rfl]
      omega
  have : ((step demo (Data.freshOn (DfFile.pages ⟨3, 4⟩ fun _ => List.replicate 26 255) demo (fun _ => 0) fun _ => (0, 0)) noIdx
        (.put 1 (dat 1))).check fun (d1, x1, o1) =>
      o1 = .code 0 ∧ d1.next = 0 ∧ (step demo d1 x1 (.put 2 (dat 2))).check fun (d2, x2, o2) =>
      o2 = .code 0 ∧ d2.next = 0 ∧ (step demo d2 x2 (.put 3 (dat 3))).check fun (d3, x3, o3) =>
      o3 = .code 0 ∧ d3.next = 1 ∧ (step demo d3 x3 .flush).check fun (d4, _, o4) =>
      o4 = .code 0 ∧ d4.dev.log.length = 2 ∧ (sharedOps d4.dev.log).length = 3 ∧
        pageId (toPage (dfRead ⟨3, 4⟩ (dfRun 26 (fun _ => List.replicate 26 255) (sharedOps d4.dev.log)) [] 1).1) = 1 ∧
        (dfRead ⟨8, 2⟩ (dfRun 26 (fun _ => List.replicate 26 255) (sharedOps d4.dev.log)) [] 1).1 = List.replicate 26 9) = true := by
    decide +kernel
  obtain ⟨⟨d1, x1, o1⟩, e1, q⟩ := Res.check_ok this
  simp only [decide_eq_true_eq] at q
  obtain ⟨rfl, n1, q⟩ := q
  obtain ⟨⟨d2, x2, o2⟩, e2, q⟩ := Res.check_ok q
  simp only [decide_eq_true_eq] at q
  obtain ⟨rfl, n2, q⟩ := q
  obtain ⟨⟨d3, x3, o3⟩, e3, q⟩ := Res.check_ok q
  simp only [decide_eq_true_eq] at q
  obtain ⟨rfl, n3, q⟩ := q
  obtain ⟨⟨d4, x4, o4⟩, e4, q⟩ := Res.check_ok q
  simp only [decide_eq_true_eq] at q
  obtain ⟨rfl, n4, q⟩ := q
  have l1 := LifeOn.op (lo := 0) (K := 1000) (P := 100)
    (LifeOn.new (init := DfFile.pages ⟨3, 4⟩ fun _ => List.replicate 26 255) (c := demo) (fun _ => 0) fun _ => (0, 0)) e1
    (by intro k v e; cases e; exact ⟨by decide, by decide, rfl, by simp [Log.all, Log.empty]⟩) (by decide)
  have l2 := LifeOn.op l1 e2 (by intro k v e; cases e; exact ⟨by decide, by decide, rfl, by decide⟩) (by omega)
  have l3 := LifeOn.op l2 e3 (by intro k v e; cases e; exact ⟨by decide, by decide, rfl, by decide⟩) (by omega)
  have l4 := LifeOn.op l3 e4 (by simp) (by omega)
  refine ⟨d4, _, demo_durable 100 (by decide) (by decide), rfl, by decide, rfl, hv, l4, ?_, ?_, q⟩
  · intro o ho
    unfold sharedOps at ho
    simp only [List.mem_append, List.mem_map, List.mem_singleton] at ho
    rcases ho with (⟨e, -, rfl⟩ | rfl) | ⟨e, -, rfl⟩
    · exact Or.inl rfl
    · exact Or.inr ⟨by decide, by decide⟩
    · exact Or.inl rfl
  · match h : d4.dev.log, n4 with
    | [a, b], _ => simp [sharedOps, ofFile]

end EDB
