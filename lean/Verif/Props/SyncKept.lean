import Verif.Props.Recovery
import Verif.Proofs.Wear
import Verif.Proofs.IdxLife

/-!
# Property C78: what a flush that has returned 0 protects

`C78_flush_partial` (Props/Sync) says that every operation on the data file made before such a flush is on the medium.  A power failure
at any later moment then leaves at least these operations, and possibly more of the later ones, in their order.
-/

namespace EDB

open Spec (Op Out Log)

section
variable {c : Cfg} {lo K P : Nat}

theorem runOps_log (hok : c.Ok K) : ∀ (ops : List Op) {d d' : Data} {x x' : Idx}, runOps c d x ops = .ok (d', x') → d.dev.log <+: d'.dev.log := by
  intro ops
  induction ops with
  | nil => intro d d' x x' e; cases e; exact List.prefix_refl _
  | cons op ops ih =>
    intro d d' x x' e
    obtain ⟨⟨d1, x1, o⟩, h1, e⟩ := Res.bind_eq_ok e
    have h2 : d.dev.log <+: d1.dev.log := by
      rcases step_log hok h1 with hl | ⟨p, hl⟩
      · rw [hl]; exact List.prefix_refl _
      · rw [hl, List.append_assoc]; exact List.prefix_append _ _
    exact h2.trans (ih e)

theorem logAfter_prefix (cap : Nat) : ∀ (h : Spec.History) (L : Log), L.pages <+: (Spec.logAfter cap L h).pages := by
  intro h
  induction h with
  | nil => intro L; exact List.prefix_refl _
  | cons a t ih =>
    intro L
    have h3 : ∀ r, L.pages <+: (L.put cap r).pages := by
      intro r; unfold Log.put; split_ifs <;> simp
    have h4 : L.pages <+: L.flush.pages := by
      unfold Log.flush; split_ifs <;> simp
    unfold Spec.logAfter
    split
    · simp_all
    · rename_i e; cases e; exact (h3 _).trans (ih _)
    · rename_i e; cases e; exact h4.trans (ih _)
    · rename_i e; cases e; exact ih _

theorem writes_prefix_le {l1 l2 : List Ev} (h : l1 <+: l2) {k : Nat} (hk : l1.length ≤ k) :
    (Spec.writes l1).length ≤ (Spec.writes (l2.take k)).length := by
  obtain ⟨t, rfl⟩ := h
  rw [List.take_append, List.take_of_length_le hk]
  rw [writes_append, List.length_append]
  omega

/-- C78 (`_partial`: `Durable` configurations and `SafeCut`, as in C18; the data file).  Whatever happened to the file before, let
`embedDBFlush` return 0, let any inserts, flushes and reads follow, and let power fail when the operations made before the end of that
flush, and any number of the later ones, have reached the medium.  Then the table is reopened, and what it holds begins with all records
accepted before the flush, which `embedDBGet` finds, except those on pages before `Spec.recovered`, the block that has been or is being reclaimed. -/
theorem C78_kept_partial (D : Durable c lo K P) {d d1 d2 : Data} {L : Log} {x x1 x2 : Idx} (h : Life c lo K P d L)
    (e : EDB.step c d x .flush = .ok (d1, x1, .code 0)) (ops : List Op) (W : Writer c lo K ops)
    (hgt : ∀ r ∈ L.all, ∀ j ∈ Spec.offered ops, r.1 < j) (hP : d.next + 1 + ops.length < P)
    (e2 : runOps c d1 x1 ops = .ok (d2, x2)) (k : Nat) (hk : d1.dev.log.length ≤ k) (hs : SafeCut c d2.dev k)
    (rb : Page) (sm : Nat → Nat × Nat) :
    ∃ d' rest, reopen c d2.dev k rb sm = (d', 0) ∧ d'.min = Spec.recovered c.N c.B d'.next ∧
      Spec.storedRecs (Spec.pageRecs c.hdr c.recSize c.keySize c.dataSize) d'.dev.file c.N d'.min (d'.next - d'.min) =
        L.flush.live d'.min ++ rest ∧ L.flush.live 0 = L.all ∧
      ∀ r ∈ L.flush.live d'.min, ∀ y, ∃ d3, EDB.step c d' y (.get r.1) = .ok (d3, y, .got 0 (some r.2)) := by
  have h32 : P ≤ 2 ^ 32 := by have := D.bounds.pages; omega
  have h1 : Life c lo K P d1 L.flush := Life.op h e (by intro k v hh; cases hh) (by omega)
  have hall : L.flush.live 0 = L.all ∧ L.flush.all = L.all ∧ L.flush.buf = [] := by
    unfold Log.flush Log.live Log.all
    split_ifs with hb <;> simp_all
  obtain ⟨J0, _, _, _, _, T0⟩ := h.ok D.ok D.bounds h32 D.recs127 D.file32 D.eraser D.spline D.pos
  obtain ⟨J1, _, _, _, _, T1⟩ := h1.ok D.ok D.bounds h32 D.recs127 D.file32 D.eraser D.spline D.pos
  have n0 : d.next = _ := T0.sim.next
  have n1 : d1.next = _ := T1.sim.next
  have hl := Log_flush_pages (L := L)
  have h2 := h1.run D ops (by omega) W (by rw [hall.2.1]; exact hgt) e2
  obtain ⟨d', n, g1, g2, g3, -, g5, g6, -, g8, -⟩ := C18_crash_partial D h2 k hs rb sm
  have hn : L.flush.pages.length ≤ n := by
    rw [g2, ← J1.count, wrote_length]
    exact writes_prefix_le (runOps_log D.ok ops e2) hk
  refine ⟨d', ?_⟩
  rw [g5]
  have hp : L.flush.pages <+: ((Spec.logAfter c.maxRec L.flush (history c d1 x1 ops)).pages.take n) :=
    List.prefix_take_iff.mpr ⟨logAfter_prefix _ _ _, hn⟩
  obtain ⟨t, ht⟩ := hp
  refine ⟨(t.drop (d'.min - L.flush.pages.length)).flatten, g1, g6, ?_, hall.1, ?_⟩
  · rw [g8]
    unfold cutLog Log.live
    rw [← g2, ← ht, hall.2.2, List.drop_append]
    simp
  · intro r hr y
    obtain ⟨J2, _, _, _, _, T2⟩ := h2.ok D.ok D.bounds h32 D.recs127 D.file32 D.eraser D.spline D.pos
    have n2 : d2.next = _ := T2.sim.next
    obtain ⟨d'', n', f1, f2, -, -, -, f6, -, -, -, f10⟩ := reopen_ok D.ok D.bounds h32 D.recs127 D.file32 D.eraser J2
      T2.sim.sorted T2.sim.bound T2.sim.full T2.cap (by omega) k hs rb sm
    rw [g1] at f1
    cases f1
    have hnn : n' = n := by rw [f2, g2]
    subst hnn
    have T := f10 (by
      rcases D.spline with h | h
      · exact Or.inr h
      · exact Or.inl (recovered_small (by omega)))
    rw [show cutLog (Spec.logAfter c.maxRec L.flush (history c d1 x1 ops)) d2.dev k =
      ⟨(Spec.logAfter c.maxRec L.flush (history c d1 x1 ops)).pages.take n', []⟩ from by unfold cutLog; rw [← g2]] at T
    have hm : r ∈ Log.live ⟨(Spec.logAfter c.maxRec L.flush (history c d1 x1 ops)).pages.take n', []⟩ d'.min := by
      unfold Log.live at hr ⊢
      rw [hall.2.2, List.append_nil] at hr
      rw [← ht, List.drop_append]
      simp only [List.append_nil, List.flatten_append, List.mem_append]
      exact Or.inl hr
    have hsub : Log.live ⟨(Spec.logAfter c.maxRec L.flush (history c d1 x1 ops)).pages.take n', []⟩ d'.min <:+
        Log.all ⟨(Spec.logAfter c.maxRec L.flush (history c d1 x1 ops)).pages.take n', []⟩ := by
      unfold Log.live Log.all
      simp only [List.append_nil]
      conv_rhs => rw [← List.take_append_drop d'.min ((Spec.logAfter c.maxRec L.flush (history c d1 x1 ops)).pages.take n'), List.flatten_append]
      exact List.suffix_append _ _
    obtain ⟨d3, e3, _⟩ := T.get D.ok D.bounds (by omega) y (by have := D.recs127; omega) (T.sim.bound r (hsub.subset hm)).2
    refine ⟨d3, ?_⟩
    rw [e3]
    have : Spec.lookup (Log.live ⟨(Spec.logAfter c.maxRec L.flush (history c d1 x1 ops)).pages.take n', []⟩ d'.min) r.1 = some r.2 :=
      (lookup_eq_some (T.sim.sorted.sublist hsub.sublist)).mpr hm
    unfold Spec.answer
    rw [this]

end

theorem kept_puts (a n : Nat) (h : a + n < 1000) : Writer demo 0 1000 ((List.range n).map fun i => Op.put (a + i) (dat (UInt8.ofNat i))) := by
  have ho : ∀ l : List Nat, Spec.offered (l.map fun i => Op.put (a + i) (dat (UInt8.ofNat i))) = l.map (a + ·) := by
    intro l
    induction l with
    | nil => rfl
    | cons i l ih => simp [Spec.offered, ih]
  refine ⟨?_, ?_⟩
  · rw [ho, List.pairwise_map]
    exact List.pairwise_lt_range.imp (by omega)
  · intro k v hm
    simp only [List.mem_map, List.mem_range] at hm
    obtain ⟨i, hi, e⟩ := hm
    cases e
    exact ⟨Nat.zero_le _, by omega, rfl⟩

/-- Four inserts, a flush that returns 0, and four more inserts, which complete a page; power fails when only the operations of the flush are on the
medium: all four records are found. -/
example : ∃ d x d1 x1 d2 x2, Life demo 0 1000 100 d (Spec.logAfter 2 Log.empty (history demo demo0 noIdx ((List.range 4).map fun i => Op.put (1 + i) (dat (UInt8.ofNat i))))) ∧
    EDB.step demo d x .flush = .ok (d1, x1, .code 0) ∧ runOps demo d1 x1 ((List.range 4).map fun i => Op.put (11 + i) (dat (UInt8.ofNat i))) = .ok (d2, x2) ∧
    (∀ k, SafeCut demo d2.dev k) ∧ d1.dev.log.length < d2.dev.log.length ∧
    (reopen demo d2.dev d1.dev.log.length (fun _ => 0) fun _ => (0, 0)).1.min = 0 ∧
    Spec.storedRecs (Spec.pageRecs demo.hdr demo.recSize demo.keySize demo.dataSize)
      (reopen demo d2.dev d1.dev.log.length (fun _ => 0) fun _ => (0, 0)).1.dev.file demo.N 0 2 = [(1, dat 0), (2, dat 1), (3, dat 2), (4, dat 3)] := by
  have h : ((runOps demo demo0 noIdx ((List.range 4).map fun i => Op.put (1 + i) (dat (UInt8.ofNat i)))).bind fun (d, x) =>
      (EDB.step demo d x .flush).bind fun (d1, x1, o) => (runOps demo d1 x1 ((List.range 4).map fun i => Op.put (11 + i) (dat (UInt8.ofNat i)))).bind fun (d2, _) =>
        .ok (d1, d2, o)).check (fun (d1, d2, o) => decide (o = .code 0 ∧ d1.dev.log.length < d2.dev.log.length ∧
          (reopen demo d2.dev d1.dev.log.length (fun _ => 0) fun _ => (0, 0)).1.min = 0 ∧
          Spec.storedRecs (Spec.pageRecs demo.hdr demo.recSize demo.keySize demo.dataSize)
            (reopen demo d2.dev d1.dev.log.length (fun _ => 0) fun _ => (0, 0)).1.dev.file demo.N 0 2 = [(1, dat 0), (2, dat 1), (3, dat 2), (4, dat 3)])) = true := by
    decide +kernel
  obtain ⟨t, e, ht⟩ := Res.check_ok h
  obtain ⟨⟨d, x⟩, e1, e⟩ := Res.bind_eq_ok e
  obtain ⟨⟨d1, x1, o⟩, e2, e⟩ := Res.bind_eq_ok e
  obtain ⟨⟨d2, x2⟩, e3, e⟩ := Res.bind_eq_ok e
  cases e
  obtain ⟨rfl, h1, h2, h3⟩ := of_decide_eq_true ht
  exact ⟨d, x, d1, x1, d2, x2, Life.run (demo_durable 100 (by decide) (by decide)) _ (Life.new _ _) (by decide) (kept_puts 1 4 (by decide))
    (by simp [Log.all, Log.empty]) e1, e2, e3, fun k => Or.inr fun q => rfl, h1, h2, h3⟩

end EDB
