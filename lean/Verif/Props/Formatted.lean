import Verif.Props.Recovery

/-!
# C65: tables on devices whose pages can be read before they are written

A new file on a disk has no pages, and reading one fails; C17 to C19 are about such devices.  On a dataflash chip every page can always
be read, and an erased one shows 0xFF bytes.  Recovery stops at the first page that is not the next one of the table, so what the pages
beyond the table show matters.
-/

namespace EDB

open Spec (Log Op Out)

/-- A chip of `N` pages all of whose bytes are `b`. -/
def blankChip (N : Nat) (b : UInt8) : Nat → Option Page := fun ph => if ph < N then some (fun _ => b) else none

section
variable {c : Cfg} {lo K P : Nat} {init : Nat → Option Page}

/-- An erased chip is a device on which a table may be created if blocks have an even number of pages (an odd number: `C65_false_odd`). -/
theorem vacant_erased (hN : c.N < 2 ^ 32) (hd : c.B ∣ c.N) (h2 : 2 ∣ c.B) : Vacant c (blankChip c.N 255) := by
  refine ⟨fun ph h => by simp [blankChip]; omega, Or.inr fun ph h => ⟨fun _ => 255, by simp [blankChip, h], ?_, ?_⟩⟩
  · have : toInt8 (pageCount fun _ => 255) = -1 := by decide
    unfold looksValid
    rw [this]
    simp
  · have hid : pageId (fun _ => 255) = 2 ^ 32 - 1 := by decide
    rw [hid]
    refine fun _ => ⟨by omega, ?_⟩
    intro hb he
    have h3 : 2 ∣ c.N := dvd_trans h2 hd
    have h4 : 2 ∣ ph := dvd_trans h2 hb
    have h5 : (2 ^ 32 - 1) % c.N % 2 = (2 ^ 32 - 1) % 2 := Nat.mod_mod_of_dvd _ h3
    rw [he] at h5
    omega

/-- So is a chip, or a file, filled with zeros. -/
theorem vacant_zeroed : Vacant c (blankChip c.N 0) := by
  refine ⟨fun ph h => by simp [blankChip]; omega, Or.inr fun ph h => ⟨fun _ => 0, by simp [blankChip, h], ?_, ?_⟩⟩
  · have : toInt8 (pageCount fun _ => 0) = 0 := by decide
    unfold looksValid
    rw [this]
    simp
  · have hid : pageId (fun _ => 0) = 0 := by decide
    rw [hid]
    refine fun h => ⟨by omega, fun _ => ?_⟩
    rw [Nat.zero_mod]
    omega

/-- C65, what is found (`_partial`: `Durable` configurations, `SafeCut` as in C18, and a device on which nothing looks like a page of the table,
`Vacant`; `C65_false_odd` and `C53_false_reset` show that this is needed).  Whatever happened to a table on a device with content `init`, let power fail after
the first `k` storage operations.  Reopening succeeds, changes nothing on the device, and the state describes exactly the pages written by then. -/
theorem C65_crash_partial (D : Durable c lo K P) (hv : Vacant c init) {d : Data} {L : Log} (h : LifeOn init c lo K P d L) (k : Nat)
    (hk : SafeCut c d.dev k) (rb : Page) (sm : Nat → Nat × Nat) :
    ∃ d' n, reopenOn init c d.dev k rb sm = (d', 0) ∧
      n = (Spec.writes (d.dev.log.take k)).length ∧ n ≤ L.pages.length ∧
      d'.dev.file = Spec.imageOn init c.eraseFx (d.dev.log.take k) ∧
      d'.next = n ∧ d'.min = Spec.recovered c.N c.B n ∧ d'.next + d'.avail = d'.min + c.N ∧
      (∀ l, d'.min ≤ l → ∀ hl : l < (L.pages.take n).length, ∃ p, d'.dev.file (l % c.N) = some p ∧ Spec.pageNo p = l ∧
        Spec.pageRecs c.hdr c.recSize c.keySize c.dataSize p = (L.pages.take n)[l]) ∧
      Spec.storedRecs (Spec.pageRecs c.hdr c.recSize c.keySize c.dataSize) d'.dev.file c.N d'.min (n - d'.min) =
        (cutLog L d.dev k).live d'.min ∧
      Spec.pageRecs c.hdr c.recSize c.keySize c.dataSize d'.wbuf = [] := by
  have h32 : P ≤ 2 ^ 32 := by have := D.bounds.pages; omega
  obtain ⟨J, hlt, m, hm, hd, T⟩ := h.ok hv D.ok D.bounds h32 D.recs127 D.file32 D.eraser D.spline D.pos
  have hn : d.next = _ := T.sim.next
  obtain ⟨d', n, g1, g2, g3, g4, g5, g6, g7, g8, g9, g10⟩ := reopenOn_ok hv D.ok D.bounds h32 D.recs127 D.file32 D.eraser J
    T.sim.sorted T.sim.bound T.sim.full T.cap (by omega) k hk rb sm
  have hs : Spec.recovered c.N c.B n = 0 ∨ c.maxErr ≤ 1 := by
    rcases D.spline with h | h
    · exact Or.inr h
    · exact Or.inl (recovered_small (by omega))
  have T' := (g10 hs).1
  have hcut : cutLog L d.dev k = ⟨L.pages.take n, []⟩ := by unfold cutLog; rw [← g2]
  rw [hcut] at T' ⊢
  have hstored : ∀ l, d'.min ≤ l → ∀ hl : l < (L.pages.take n).length, ∃ p, d'.dev.file (l % c.N) = some p ∧
      recs c p = (L.pages.take n)[l] ∧ pageId p = l % 2 ^ 32 := fun l h1 h2 => T'.sim.stored l h1 h2
  have hlen : (L.pages.take n).length = n := by rw [List.length_take]; omega
  have hml : d'.min ≤ d'.next := T'.sim.minle
  refine ⟨d', n, g1, g2, g3, by rw [g5]; rfl, g6, g7, T'.room.sum, ?_, ?_, ?_⟩
  · intro l h1 h2
    obtain ⟨p, p1, p2, p3⟩ := hstored l h1 h2
    refine ⟨p, p1, ?_, by rw [← recs_spec]; exact p2⟩
    rw [← pageId_spec, p3, Nat.mod_eq_of_lt (by omega)]
  · have := storedRecs_eq (c := c) (file := d'.dev.file) (pages := L.pages.take n) d'.min
      (by omega) (fun l h1 h2 => by
        obtain ⟨p, p1, p2, _⟩ := hstored l h1 h2
        exact ⟨p, p1, p2⟩)
    rw [hlen] at this
    rw [show (Spec.pageRecs c.hdr c.recSize c.keySize c.dataSize) = recs c from (funext fun p => (recs_spec c p)).symm, this]
    unfold Log.live
    simp
  · rw [← recs_spec, g8]; exact recs_init c

/-- C65, use after recovery (`_partial`: as above, `NoStale` as in C19, and at least one page is found unless nothing could be read at first:
opening a formatted chip without a table leaves a blank page in the read cache, `C65_false_stale`).  Everything a client observes after
recovery agrees with the log of the pages recovered. -/
theorem C65_usable_partial (D : Durable c lo K P) (hv : Vacant c init) {d : Data} {L : Log} (h : LifeOn init c lo K P d L) (k : Nat)
    (hk : SafeCut c d.dev k) (rb : Page) (sm : Nat → Nat × Nat) (x : Idx) (ops : List Op) (hC : Client c lo K ops)
    (hasc : ∀ r ∈ (cutLog L d.dev k).all, ∀ j ∈ Spec.offered ops, r.1 < j)
    (hP : L.pages.length + ops.length ≤ P) (h0 : (∀ ph, init ph = none) ∨ 0 < (cutLog L d.dev k).pages.length) :
    ∃ d', reopenOn init c d.dev k rb sm = (d', 0) ∧ (NoStale c d' x ops →
      Spec.Run (fun _ => True)
        (fun l => l.live (max (Spec.recovered c.N c.B (cutLog L d.dev k).pages.length) (Spec.dropped c.N c.B l.pages.length)))
        c.maxRec c.cmpData (cutLog L d.dev k) (history c d' x ops)) := by
  have h32 : P ≤ 2 ^ 32 := by have := D.bounds.pages; omega
  obtain ⟨J, hlt, m, hm, hd, T⟩ := h.ok hv D.ok D.bounds h32 D.recs127 D.file32 D.eraser D.spline D.pos
  have hn : d.next = _ := T.sim.next
  obtain ⟨d', n, g1, g2, g3, g4, g5, g6, g7, g8, g9, g10⟩ := reopenOn_ok hv D.ok D.bounds h32 D.recs127 D.file32 D.eraser J
    T.sim.sorted T.sim.bound T.sim.full T.cap (by omega) k hk rb sm
  have hs : Spec.recovered c.N c.B n = 0 ∨ c.maxErr ≤ 1 := by
    rcases D.spline with h | h
    · exact Or.inr h
    · exact Or.inl (recovered_small (by omega))
  have hlen : (cutLog L d.dev k).pages.length = n := by unfold cutLog; rw [← g2]; simp only [List.length_take]; omega
  rw [hlen] at h0 ⊢
  refine ⟨d', g1, ?_⟩
  intro hS
  refine history_ok (m := Spec.recovered c.N c.B n) D.ok hs recovered_dvd D.bounds (by have := D.recs127; omega)
    (G := fun d x ops => NoStale c d x ops) (fun l _ => rfl) ?_ ?_ ops d' x _ ((g10 hs).2 h0) trivial ?_ hC hasc hS
  · intro d L x op ops g _ _ hc
    exact g.1 hc
  · intro d L x op ops d' x' o g _ _ e
    exact g.2 d' x' o e
  · omega

/-- C65, use after recovery of tables that have not wrapped and do not wrap while they are used: no assumption on the cache. -/
theorem C65_usable_unwrapped_partial (D : Durable c lo K P) (hv : Vacant c init) {d : Data} {L : Log} (h : LifeOn init c lo K P d L)
    (k : Nat) (hk : SafeCut c d.dev k) (rb : Page) (sm : Nat → Nat × Nat) (x : Idx) (ops : List Op) (hC : Client c lo K ops)
    (hasc : ∀ r ∈ (cutLog L d.dev k).all, ∀ j ∈ Spec.offered ops, r.1 < j)
    (hP : L.pages.length + ops.length ≤ P) (hN : (cutLog L d.dev k).pages.length ≤ c.N)
    (h0 : (∀ ph, init ph = none) ∨ 0 < (cutLog L d.dev k).pages.length) :
    ∃ d', reopenOn init c d.dev k rb sm = (d', 0) ∧
      Spec.Run (fun l => l.pages.length ≤ c.N) Log.all c.maxRec c.cmpData (cutLog L d.dev k) (history c d' x ops) := by
  have h32 : P ≤ 2 ^ 32 := by have := D.bounds.pages; omega
  obtain ⟨J, hlt, m, hm, hd, T⟩ := h.ok hv D.ok D.bounds h32 D.recs127 D.file32 D.eraser D.spline D.pos
  have hn : d.next = _ := T.sim.next
  obtain ⟨d', n, g1, g2, g3, g4, g5, g6, g7, g8, g9, g10⟩ := reopenOn_ok hv D.ok D.bounds h32 D.recs127 D.file32 D.eraser J
    T.sim.sorted T.sim.bound T.sim.full T.cap (by omega) k hk rb sm
  have hlen : (cutLog L d.dev k).pages.length = n := by unfold cutLog; rw [← g2]; simp only [List.length_take]; omega
  rw [hlen] at h0
  have hz : Spec.recovered c.N c.B n = 0 := recovered_small (by omega)
  rw [hz] at g10
  refine ⟨d', g1, history_ok (m := 0) D.ok (Or.inl rfl) (dvd_zero _) D.bounds (by have := D.recs127; omega)
    (G := fun _ _ _ => True) ?_ ?_ ?_ ops d' x _ ((g10 (Or.inl rfl)).2 h0) hN ?_ hC hasc trivial⟩
  · intro l hl
    unfold Spec.dropped
    rw [if_pos hl, Nat.max_self, Log_live_zero]
  · intro d L x op ops _ T hl hc
    exact unwrapped_safe D.ok T hc hl
  · intros; trivial
  · omega

/-- C65, new tables: a table created with EMBEDDB_RESET_DATA on a device with any content behaves as on an empty one, as long as it is not
reopened (`_partial`: `Cfg.Ok`, ascending clients, tables that do not wrap). -/
theorem C65_created_partial (D : Durable c lo K P) (rb : Page) (sm : Nat → Nat × Nat) (x : Idx) (ops : List Op) (hC : Client c lo K ops)
    (hP : ops.length ≤ P) :
    Spec.Run (fun l => l.pages.length ≤ c.N) Log.all c.maxRec c.cmpData Log.empty (history c (Data.freshOn init c rb sm) x ops) := by
  refine history_ok (m := 0) D.ok (Or.inl rfl) (dvd_zero _) D.bounds (by have := D.recs127; omega)
    (G := fun _ _ _ => True) ?_ ?_ ?_ ops _ x _ (freshOn_table D.ok rb sm) (Nat.zero_le _) ?_ hC (by simp [Log.all, Log.empty]) trivial
  · intro l hl
    unfold Spec.dropped
    rw [if_pos hl, Nat.max_self, Log_live_zero]
  · intro d L x op ops _ T hl hc
    exact unwrapped_safe D.ok T hc hl
  · intros; trivial
  · simp [Data.freshOn, Data.fresh]; omega

end

/-! ### The hypotheses can be met -/

/-- An erased chip with a table: three inserts and a flush give two pages, then power fails; the chip still has two blank pages. -/
example : Durable demo 0 1000 100 ∧ Vacant demo (blankChip 4 255) ∧ ∃ d L, LifeOn (blankChip 4 255) demo 0 1000 100 d L ∧
    SafeCut demo d.dev 2 ∧ (cutLog L d.dev 2).pages.length = 2 ∧
    (Spec.imageOn (blankChip 4 255) demo.eraseFx (d.dev.log.take 2) 3).map pageId = some (2 ^ 32 - 1) := by
  refine ⟨demo_durable 100 (by decide) (by decide), vacant_erased (c := demo) (by decide) (by decide) (by decide), ?_⟩
  have : ((step demo (Data.freshOn (blankChip 4 255) demo (fun _ => 0) fun _ => (0, 0)) noIdx (.put 1 (dat 1))).check fun (d1, x1, o1) =>
      o1 = .code 0 ∧ d1.next = 0 ∧ (step demo d1 x1 (.put 2 (dat 2))).check fun (d2, x2, o2) =>
      o2 = .code 0 ∧ d2.next = 0 ∧ (step demo d2 x2 (.put 3 (dat 3))).check fun (d3, x3, o3) =>
      o3 = .code 0 ∧ d3.next = 1 ∧ (step demo d3 x3 .flush).check fun (d4, _, o4) =>
      o4 = .code 0 ∧ (Spec.writes (d4.dev.log.take 2)).length = 2 ∧
        (Spec.imageOn (blankChip 4 255) demo.eraseFx (d4.dev.log.take 2) 3).map pageId = some (2 ^ 32 - 1)) = true := by decide +kernel
  obtain ⟨⟨d1, x1, o1⟩, e1, q⟩ := Res.check_ok this
  simp only [decide_eq_true_eq] at q
  obtain ⟨rfl, n1, q⟩ := q
  obtain ⟨⟨d2, x2, o2⟩, e2, q⟩ := Res.check_ok q
  simp only [decide_eq_true_eq] at q
  obtain ⟨rfl, n2, q⟩ := q
  obtain ⟨⟨d3, x3, o3⟩, e3, q⟩ := Res.check_ok q
  simp only [decide_eq_true_eq] at q
  obtain ⟨rfl, n3, q⟩ := q
  obtain ⟨⟨d4, x4, o4⟩, e4, q⟩ := Res.check_ok q
  simp only [decide_eq_true_eq] at q
  obtain ⟨rfl, n4, q⟩ := q
  have l1 := LifeOn.op (lo := 0) (K := 1000) (P := 100) (LifeOn.new (init := blankChip 4 255) (c := demo) (fun _ => 0) fun _ => (0, 0)) e1
    (by intro k v e; cases e; exact ⟨by decide, by decide, rfl, by simp [Log.all, Log.empty]⟩) (by decide)
  have l2 := LifeOn.op l1 e2 (by intro k v e; cases e; exact ⟨by decide, by decide, rfl, by decide⟩) (by omega)
  have l3 := LifeOn.op l2 e3 (by intro k v e; cases e; exact ⟨by decide, by decide, rfl, by decide⟩) (by omega)
  have l4 := LifeOn.op l3 e4 (by simp) (by omega)
  refine ⟨d4, _, l4, Or.inr fun q => rfl, ?_, q⟩
  unfold cutLog
  rw [n4]
  decide

end EDB
