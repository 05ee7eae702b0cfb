import Verif.Props.Recovery

/-!
# Recovery properties that are false of the code
-/

namespace EDB

open Spec (Log Op Out)

/-! ## C41 -/

/-- C41 is false: if the first page holds 128 to 255 records and the page at the next block does not exist, opening the
file finds nothing: the table starts again at page 0, over the existing records. -/
theorem C41_false (c : Cfg) (v : Dev) (rb : Page) (sm : Nat → Nat × Nat) (p : Page) (hr : c.rlc = false) (hB : 0 < c.B)
    (h0 : v.file 0 = some p) (hp : 128 ≤ pageCount p ∧ pageCount p ≤ 255) (h1 : v.file c.B = none) :
    ∃ d', recover c v rb sm = (d', 0) ∧ d'.next = 0 ∧ d'.min = 0 := by
  have hv : looksValid c p 0 = false := by
    unfold looksValid toInt8
    rw [Nat.mod_eq_of_lt (show pageCount p < 256 by omega), if_neg (by omega)]
    simp only [decide_eq_false_iff_not, not_and, not_lt]
    intro _ h
    omega
  have F : Fresh (Data.opening c v rb sm) := by intro ph h; simp [Data.opening, Data.fresh] at h
  unfold recover recoverPlain
  rw [hr, if_neg (by simp)]
  obtain ⟨d1, e1, f1, g1⟩ : ∃ d1, readPage (Data.opening c v rb sm) 0 = (d1, true) ∧ d1.rbuf = p ∧
      (d1.dev.file = v.file ∧ d1.next = 0 ∧ d1.min = 0 ∧ d1.buffered = some 0) := by
    unfold readPage
    simp [Data.opening, Data.fresh, h0]
  have e2 : readPage d1 c.B = ({ d1 with numReads := d1.numReads }, false) := by
    unfold readPage
    rw [if_neg (by rw [g1.2.2.2]; simp; omega), g1.1, h1]
  simp only [e1]
  have : probe c 2 d1 0 true = ⟨d1, 0 + c.B, none, false⟩ := by
    simp only [probe, if_true, f1, hv, Bool.false_eq_true, if_false, Nat.zero_add, e2]
  rw [this]
  exact ⟨d1, rfl, g1.2.1, g1.2.2.1⟩

/-- It is reached: 128 inserts into the demo table with 256 records per page, a flush, and reopening. -/
theorem C41_false_reached : ((runOps demo256 (Data.fresh demo256 (fun _ => 0) fun _ => (0, 0)) noIdx
      (((List.range 128).map fun i => .put (i + 1) (dat 7)) ++ [.flush])).check fun (d, _) =>
    d.next = 1 ∧ (recover demo256 d.dev (fun _ => 0) fun _ => (0, 0)).2 = 0 ∧
    (recover demo256 d.dev (fun _ => 0) fun _ => (0, 0)).1.next = 0) = true := by
  decide +kernel

/-! ## C43 -/

/-- Executable version of `Spec.ErasedFirst`. -/
def erasedFirst : (Nat → Bool) → List Ev → Bool
  | _, [] => true
  | dirty, .write ph _ :: t => !dirty ph && erasedFirst (fun i => i == ph || dirty i) t
  | dirty, .erase lo hi :: t => erasedFirst (fun i => dirty i && !(decide (lo ≤ i) && decide (i < hi))) t

theorem erasedFirst_iff : ∀ (log : List Ev) (dirty : Nat → Bool),
    erasedFirst dirty log = true ↔ Spec.ErasedFirst (fun i => dirty i = true) log := by
  intro log
  induction log with
  | nil => intro dirty; simp [erasedFirst, Spec.ErasedFirst]
  | cons e t ih =>
    intro dirty
    cases e with
    | write ph p =>
      simp only [erasedFirst, Spec.ErasedFirst, Bool.and_eq_true, ih, Bool.or_eq_true, beq_iff_eq]
      simp
    | erase lo hi =>
      simp only [erasedFirst, Spec.ErasedFirst, ih]
      simp only [Bool.and_eq_true, Bool.not_eq_true', Bool.and_eq_false_iff, decide_eq_false_iff_not]
      have : (fun i => dirty i = true ∧ (¬lo ≤ i ∨ ¬i < hi)) = (fun i => dirty i = true ∧ ¬(lo ≤ i ∧ i < hi)) := by
        funext i
        rw [not_and_or]
      rw [this]

theorem reopen_unerased : ((runOps demo demo0 noIdx (demoPuts ++ [Op.flush])).check fun (d, _) =>
    (recover demo d.dev (fun _ => 0) (fun _ => (0, 0))).2 = 0 ∧
    erasedFirst (fun _ => false) (recover demo d.dev (fun _ => 0) (fun _ => (0, 0))).1.dev.log = true ∧
    (runOps demo (recover demo d.dev (fun _ => 0) (fun _ => (0, 0))).1 noIdx [.put 13 (dat 1), .flush]).check fun (d2, _) =>
        erasedFirst (fun _ => false) d2.dev.log = false) = true := by
  decide +kernel

/-- C43 is false after reopening: six pages are written (the last one completes a block), the file is reopened, which
treats the block it would reuse next as free without erasing it; the next page write overwrites page 2 without an erase. -/
theorem C43_false_reopen : ∃ d x d2 x2, runOps demo demo0 noIdx (demoPuts ++ [Op.flush]) = .ok (d, x) ∧
    Spec.ErasedFirst (fun _ => False) d.dev.log ∧
    runOps demo (recover demo d.dev (fun _ => 0) (fun _ => (0, 0))).1 noIdx [.put 13 (dat 1), .flush] = .ok (d2, x2) ∧
    ¬ Spec.ErasedFirst (fun _ => False) d2.dev.log := by
  obtain ⟨⟨d, x⟩, h1, h2⟩ := Res.check_ok reopen_unerased
  simp only [decide_eq_true_eq] at h2
  obtain ⟨-, -, h4⟩ := h2
  obtain ⟨⟨d2, x2⟩, h5, h6⟩ := Res.check_ok h4
  refine ⟨d, x, d2, x2, h1, C43_erase_before_write_partial demo 1000 _ _ _ _ _ d (demo_ok _) h1, h5, ?_⟩
  intro h
  have h7 := (erasedFirst_iff d2.dev.log fun _ => false).mpr (by simpa using h)
  simp only [h7] at h6
  simp at h6

/-! ## C18 -/

/-- The demo table on a device where an erased page reads as bytes 01 (as `MOCK_FILE_ERASE`,
lib/Desktop-File-Interface/desktopFileInterface.c, does). -/
def fill1 : Cfg := { demo with eraseFx := Option.map fun _ _ => 1 }

theorem splineFrom_min (c : Cfg) : ∀ n d pg, (splineFrom c n d pg).min = d.min ∧ (splineFrom c n d pg).next = d.next := by
  have hr : ∀ (d : Data) ph, (readPage d ph).1.min = d.min ∧ (readPage d ph).1.next = d.next := by
    intro d ph
    unfold readPage
    split_ifs
    · exact ⟨rfl, rfl⟩
    · split <;> exact ⟨rfl, rfl⟩
  intro n
  induction n with
  | zero => intro d pg; exact ⟨rfl, rfl⟩
  | succ n ih =>
    intro d pg
    unfold splineFrom
    simp only
    have h1 := ih { (readPage d (pg % c.N)).1 with
      spl := (readPage d (pg % c.N)).1.spl.add (pageMinKey c (readPage d (pg % c.N)).1.rbuf) pg } ((pg + 1) % 2 ^ 32)
    exact ⟨h1.1.trans (hr d _).1, h1.2.trans (hr d _).2⟩

/-- The counters do not depend on whether the spline is rebuilt. -/
theorem recoverPlain_counters (c : Cfg) (d : Data) :
    (recoverPlain c d).1.min = (recoverPlain { c with binSearch := true } d).1.min ∧
    (recoverPlain c d).1.next = (recoverPlain { c with binSearch := true } d).1.next ∧
    (recoverPlain c d).2 = (recoverPlain { c with binSearch := true } d).2 := by
  have hset : ∀ d a b e, (setCounters c d a b e).min = (setCounters { c with binSearch := true } d a b e).min ∧
      (setCounters c d a b e).next = (setCounters { c with binSearch := true } d a b e).next := by
    intro d a b e
    unfold setCounters
    simp only
    split_ifs
    · exact ⟨rfl, rfl⟩
    · exact splineFrom_min c _ _ _
  have hp : ∀ n d pos more, probe { c with binSearch := true } n d pos more = probe c n d pos more := by
    intro n
    induction n with
    | zero => intros; rfl
    | succ n ih =>
      intro d pos more
      unfold probe
      simp only [ih]
      rfl
  have hf : ∀ n d pos last more, follow { c with binSearch := true } n d pos last more = follow c n d pos last more := by
    intro n
    induction n with
    | zero => intros; rfl
    | succ n ih =>
      intro d pos last more
      unfold follow
      simp only [ih]
  unfold recoverPlain
  simp only [hp, hf]
  cases (probe c 2 (readPage d 0).1 0 (readPage d 0).2).last with
  | none => exact ⟨rfl, rfl, rfl⟩
  | some last =>
    simp only
    unfold finishRecover
    simp only
    split_ifs
    · exact ⟨(hset _ _ _ _).1, (hset _ _ _ _).2, rfl⟩
    · exact ⟨(hset _ _ _ _).1, (hset _ _ _ _).2, rfl⟩
    · exact ⟨rfl, rfl, rfl⟩
    · exact ⟨(hset _ _ _ _).1, (hset _ _ _ _).2, rfl⟩

/-- Sixteen inserts and a flush on `fill1`: eight pages on a file of four; then the ninth page. -/
def nine : List Op := ((List.range 17).map fun i => .put (i + 1) (dat 7)) ++ [.flush]

/-- C18 is false right after the erase of the first block: eight pages were written, the ninth is about to be, its block (the first of
the file) has been erased and power fails.  Reopening returns 0 but takes the bytes of the erased page for the number of the
oldest page: minDataPageId is 16843009 with 8 pages written, none of which can be found any more; rebuilding the spline
then runs over 4278124295 pages. -/
theorem C18_false_first_block : ((runOps fill1 (Data.fresh fill1 (fun _ => 0) fun _ => (0, 0)) noIdx nine).check fun (d, _) =>
    d.next = 9 ∧ (d.dev.log.take 11).getLast?.any (fun | .erase a b => a = 0 ∧ b = 2 | _ => false) ∧
      (Spec.writes (d.dev.log.take 11)).length = 8 ∧
      (reopen { fill1 with binSearch := true } d.dev 11 (fun _ => 0) fun _ => (0, 0)).2 = 0 ∧
      (reopen { fill1 with binSearch := true } d.dev 11 (fun _ => 0) fun _ => (0, 0)).1.next = 8 ∧
      (reopen { fill1 with binSearch := true } d.dev 11 (fun _ => 0) fun _ => (0, 0)).1.min = 16843009) = true := by
  decide +kernel

/-- The same for `fill1` itself: the counters do not depend on the search mode. -/
theorem C18_false_first_block' : ∃ d x', runOps fill1 (Data.fresh fill1 (fun _ => 0) fun _ => (0, 0)) noIdx nine = .ok (d, x') ∧
    (reopen fill1 d.dev 11 (fun _ => 0) fun _ => (0, 0)).2 = 0 ∧
    (reopen fill1 d.dev 11 (fun _ => 0) fun _ => (0, 0)).1.next = 8 ∧
    (reopen fill1 d.dev 11 (fun _ => 0) fun _ => (0, 0)).1.min = 16843009 := by
  obtain ⟨⟨d, x'⟩, h1, h2⟩ := Res.check_ok C18_false_first_block
  simp only [decide_eq_true_eq] at h2
  obtain ⟨_, _, _, h3, h4, h5⟩ := h2
  have h := recoverPlain_counters fill1 (Data.opening fill1 (cutDev fill1 d.dev 11) (fun _ => 0) fun _ => (0, 0))
  refine ⟨d, x', h1, ?_, ?_, ?_⟩
  · exact h.2.2.trans h3
  · exact h.2.1.trans h4
  · exact h.1.trans h5

/-- The demo table with eight pages in blocks of two on a device whose erased pages cannot be read (as after a truncation
or with a read that fails on blank flash). -/
def blank : Cfg := { demo with N := 8, eraseFx := fun _ => none }

/-- C18 is false on such a device: nine pages are written and flushed normally (so pages 2 to 8 are stored), but the page behind the newest
one cannot be read, which ends the search, and physical page 0, holding page 8, is taken for the oldest: after
reopening only page 8 is left. -/
theorem C18_false_unreadable : ((runOps blank (Data.fresh blank (fun _ => 0) fun _ => (0, 0)) noIdx nine).check fun (d, _) =>
    d.next = 9 ∧ d.min = 2 ∧ (recover blank d.dev (fun _ => 0) fun _ => (0, 0)).2 = 0 ∧
      (recover blank d.dev (fun _ => 0) fun _ => (0, 0)).1.next = 9 ∧
      (recover blank d.dev (fun _ => 0) fun _ => (0, 0)).1.min = 8) = true := by
  decide +kernel

end EDB
