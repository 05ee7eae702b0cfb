import Verif.Proofs.Cost
import Verif.Spec.Device
import Verif.Props.Reads
import Verif.Props.Scans

/-!
# C59: what the operations cost
-/

namespace EDB

open Spec (Log Range Op Out)

section
variable {c : Cfg} {lo K : Nat} {ops : List Op} {rb : Page} {sm : Nat → Nat × Nat} {x : Idx}

/-- As `reached`, for tables whose spline has room. -/
theorem reached_head (hok : c.Ok K) (hB : Bounds c lo K ops.length) (h255 : c.maxRec ≤ 255) (hC : Client c lo K ops)
    (hS : NoStale c (Data.fresh c rb sm) x ops) (hR : Spacious c ops.length) :
    ∃ d, runOps c (Data.fresh c rb sm) x ops = .ok (d, x) ∧ d.next ≤ ops.length ∧ Head c d ∧
      Table c lo K d (Spec.logAfter c.maxRec Log.empty (history c (Data.fresh c rb sm) x ops)) := by
  obtain ⟨d, h1, h2, h3, h4⟩ := runOps_ok (m := 0) hok (Or.inl rfl) hB h255
    (G := fun d x os => NoStale c d x os ∧ Head c d ∧ d.next + os.length ≤ ops.length)
    (fun d L x op ops g _ hc => g.1.1 hc)
    (fun d L x op os d' x' o g T C e => by
      obtain ⟨g1, g2, g3⟩ := g
      rw [List.length_cons] at g3
      obtain ⟨s1, s2⟩ := g2.step hok hB h255 hR T (by omega) (fun k hk => C.get k (by rw [hk]; simp))
        (fun q hq => C.scan q (by rw [hq]; simp)) e
      exact ⟨g1.2 d' x' o e, s1, by omega⟩)
    ops (Data.fresh c rb sm) x Log.empty (fresh_table hok rb sm) (by simp [Data.fresh]) hC (by simp [Log.all, Log.empty])
    ⟨hS, Head.fresh rb sm, by simp [Data.fresh]⟩
  exact ⟨d, h1, by simpa [Data.fresh] using h3, h4.2.1, h2⟩

end

/-! ## C59 -/

/-- C59, lookups (`_partial`: for histories without a stale read cache, as C02).  After every such history of a table whose
spline has room for its points, every lookup terminates after reading at most `2 * maxErr + 1` pages, however many pages
are stored.  (Without room: `C59_false_spline_full`.) -/
theorem C59_lookup_reads_partial (c : Cfg) (lo K : Nat) (ops : List Op) (rb : Page) (sm : Nat → Nat × Nat) (x : Idx)
    (hok : c.Ok K) (hB : Bounds c lo K ops.length) (h255 : c.maxRec ≤ 255) (hC : Client c lo K ops)
    (hS : NoStale c (Data.fresh c rb sm) x ops)
    (hR : ops.length ≤ c.splSize ∨ (c.noClean = false ∧ c.N + 2 ≤ c.splSize)) (key : Nat) (hk : key < K) :
    ∃ d d' r out, runOps c (Data.fresh c rb sm) x ops = .ok (d, x) ∧ get c d key = .ok (d', r, out) ∧
      d'.numReads ≤ d.numReads + (2 * c.maxErr + 1) := by
  obtain ⟨d, h1, h2, H, T⟩ := reached_head (rb := rb) (sm := sm) (x := x) hok hB h255 hC hS hR
  obtain ⟨d', r, out, e, hr⟩ := C46_bounded_reads c lo K ops.length d _ key hok hB T h2 hk
  refine ⟨d, d', r, out, h1, e, ?_⟩
  rcases Nat.eq_zero_or_pos d.next with h0 | h0
  · have := (C46_buffer_no_read c d d' key r out (Or.inl h0) e).2
    omega
  · rcases hr with hr | ⟨f, hf, hr⟩
    · omega
    · have := H.width h0 T.sim hf
      omega

/-- C59, scans (`_partial`: as above, without a bitmap index).  A complete scan reads every retained page at most once, and
reads at most `2 * maxErr + 2` pages more than there are retained pages with a key within the bounds.  Without a lower bound on the keys
it reads at most one page more. -/
theorem C59_scan_reads_partial (c : Cfg) (lo K : Nat) (ops : List Op) (rb : Page) (sm : Nat → Nat × Nat) (x : Idx)
    (hok : c.Ok K) (hB : Bounds c lo K ops.length) (h255 : c.maxRec ≤ 255) (hC : Client c lo K ops)
    (hS : NoStale c (Data.fresh c rb sm) x ops)
    (hR : ops.length ≤ c.splSize ∨ (c.noClean = false ∧ c.N + 2 ≤ c.splSize)) (hbm : c.useBmap = false)
    (q : Range) (hq : KeysOk K q) :
    let L := Spec.logAfter c.maxRec Log.empty (history c (Data.fresh c rb sm) x ops)
    let kept := L.pages.drop (Spec.dropped c.N c.B L.pages.length)
    ∃ d d', runOps c (Data.fresh c rb sm) x ops = .ok (d, x) ∧
      scanAll c d x q = .ok (d', x, Spec.scan c.cmpData q (L.live (Spec.dropped c.N c.B L.pages.length))) ∧
      d'.numReads ≤ d.numReads + kept.length ∧
      d'.numReads ≤ d.numReads + (2 * c.maxErr + 2) + Spec.pagesHit q kept ∧
      (q.minKey = none → d'.numReads ≤ d.numReads + 1 + Spec.pagesHit q kept) := by
  intro L kept
  obtain ⟨d, h1, h2, H, T⟩ := reached_head (rb := rb) (sm := sm) (x := x) hok hB h255 hC hS hR
  have hm := T.dropped hok.B0
  have hn := T.sim.next
  have hkl : kept.length = d.next - d.min := by
    show (L.pages.drop _).length = _
    rw [List.length_drop, ← hm, hn]
  obtain ⟨it, i1, -, -, -, i5, i6, -⟩ := initIter_ok hok.cmp hB hok.spline hbm T.sim h2 hq
  -- the first page without keys below the bound
  have key : ∃ u, it.page ≤ u ∧ u - it.page ≤ 2 * c.maxErr + 1 ∧ (q.minKey = none → u = it.page) ∧
      ∀ l, u ≤ l → l < d.next → ∀ b, q.minKey = some b → b ≤ firstKey L l := by
    cases hmk : q.minKey with
    | none => exact ⟨it.page, le_refl _, by omega, fun _ => rfl, fun _ _ _ b hb => by cases hb⟩
    | some k =>
      rcases Nat.eq_zero_or_pos d.next with h0 | h0
      · exact ⟨it.page, le_refl _, by omega, (by intro h; cases h), fun _ _ h => by omega⟩
      · have hk := hq.min k hmk
        obtain ⟨r, hr, -, -⟩ := before_low hok.cmp hB hk T.sim h2 h0
        have hw := H.width h0 T.sim hr
        have hab := above_high hok.cmp hB hk T.sim h2 h0 hr
        have hcnt : d.spl.count ≠ 0 := by
          rcases Nat.eq_or_lt_of_le (show 0 + 1 ≤ d.next by omega) with h1 | h1
          · have := (T.sim.spl.one (by omega)).1; omega
          · have := (T.sim.spl.many (by omega)).two; omega
        have hpg : it.page = max r.low d.min := by
          unfold initIter at i1
          simp only [hok.spline, Bool.false_eq_true, if_false] at i1
          rw [if_pos hcnt, hmk] at i1
          simp only at i1
          rw [hr, Res.ok_bind] at i1
          cases i1
          rfl
        refine ⟨max it.page (r.high + 1), by omega, by omega, (by intro h; cases h), ?_⟩
        intro l hl1 hl2 b hb
        cases hb
        exact (hab l (by omega) hl2).le
  obtain ⟨u, u1, u2, u3, u4⟩ := key
  obtain ⟨d', e1, e2, e3⟩ := scan_cost hok hB hbm T.sim h2 T.cap x hq i1 u1 u4
  have hk2 : L.pages.drop d.min = kept := by show _ = L.pages.drop _; rw [hm]
  rw [hk2] at e3
  refine ⟨d, d', h1, ?_, by omega, by omega, fun h => ?_⟩
  · rw [← hm]; exact e1
  · have := u3 h
    omega

/-- C59, inserts.  Whatever the state of the table is: an insert reads at most one page, writes at most one page and erases at
most one block; an insert that is refused writes and erases nothing. -/
theorem C59_insert_cost (c : Cfg) (K : Nat) (hok : c.Ok K) (d : Data) (key : Nat) (data : List Byte) (loc : Nat) :
    ∃ d' r w evs, putD c d key data loc = .ok (d', r, w) ∧ d'.numReads ≤ d.numReads + 1 ∧ d'.dev.log = d.dev.log ++ evs ∧
      (Spec.writes evs).length ≤ 1 ∧ evs.length ≤ (Spec.writes evs).length + 1 ∧ (r ≠ 0 → evs = []) := by
  have E := orderCheck_same (c := c) d key
  have hr : (orderCheck c d key).1.numReads ≤ d.numReads + 1 := by
    unfold orderCheck
    simp only
    split_ifs
    · unfold readPage
      split_ifs
      · simp
      · split <;> simp
    · simp
    · simp
  rw [putD_eq hok]
  split_ifs with h
  · have hl : ∃ evs, (accepted c (orderCheck c d key).1 key data loc).dev.log = (orderCheck c d key).1.dev.log ++ evs ∧
        (Spec.writes evs).length ≤ 1 ∧ evs.length ≤ (Spec.writes evs).length + 1 ∧
        (accepted c (orderCheck c d key).1 key data loc).numReads = (orderCheck c d key).1.numReads := by
      unfold accepted
      simp only
      by_cases hf : pageCount (orderCheck c d key).1.wbuf ≥ c.maxRec
      · rw [if_pos hf]
        by_cases ha : (orderCheck c d key).1.avail = 0
        · exact ⟨[_, _], by simp only [sealed, outData, outDev]; rw [if_pos ha, List.append_assoc]; rfl,
            by simp [Spec.writes], by simp [Spec.writes], rfl⟩
        · exact ⟨[_], by simp only [sealed, outData, outDev]; rw [if_neg ha, List.append_nil],
            by simp [Spec.writes], by simp [Spec.writes], rfl⟩
      · rw [if_neg hf]
        exact ⟨[], by simp, by simp [Spec.writes], by simp [Spec.writes], rfl⟩
    obtain ⟨evs, l1, l2, l3, l4⟩ := hl
    exact ⟨_, _, _, evs, rfl, by omega, by rw [l1, E.dev], l2, l3, fun h => absurd rfl h⟩
  · exact ⟨_, _, _, [], rfl, hr, by rw [E.dev]; simp, by simp [Spec.writes], by simp [Spec.writes], fun _ => rfl⟩

/-- The reads of one operation. -/
theorem step_reads {c : Cfg} {lo K P : Nat} {d d' : Data} {L : Log} {x x' : Idx} {op : Op} {o : Out} (hok : c.Ok K)
    (hB : Bounds c lo K P) (hbm : c.useBmap = false) (T : Table c lo K d L) (H : Head c d) (hP : d.next ≤ P)
    (hg : ∀ k, op = .get k → k < K) (hq : ∀ q, op = .scan q → KeysOk K q) (e : step c d x op = .ok (d', x', o)) :
    d'.numReads ≤ d.numReads + Spec.opReads (2 * c.maxErr + 1) c.N op := by
  cases op with
  | put k v =>
    obtain ⟨d1, r, w, evs, e1, e2, -⟩ := C59_insert_cost c K hok d k v 0
    simp only [step] at e
    rw [e1] at e
    simp only [Res.ok_bind] at e
    cases e
    exact e2
  | flush =>
    simp only [step] at e
    rw [flushD_eq hok.io hok.spline] at e
    split_ifs at e
    · simp only [Res.ok_bind] at e; cases e; exact le_refl _
    · simp only [Res.ok_bind] at e; cases e; exact le_refl _
  | get k =>
    obtain ⟨d1, r, out, e1, hr⟩ := C46_bounded_reads c lo K P d L k hok hB T hP (hg k rfl)
    simp only [step] at e
    have e1' := e1
    rw [e1] at e
    simp only [Res.ok_bind] at e
    cases e
    simp only [Spec.opReads]
    rcases Nat.eq_zero_or_pos d.next with h0 | h0
    · have := (C46_buffer_no_read c d d' k r out (Or.inl h0) e1').2
      omega
    · rcases hr with hr | ⟨f, hf, hr⟩
      · omega
      · have := H.width h0 T.sim hf
        omega
  | scan q =>
    obtain ⟨it, i1, -⟩ := initIter_ok hok.cmp hB hok.spline hbm T.sim hP (hq q rfl)
    obtain ⟨d1, e1, e2, -⟩ := scan_cost (u := max it.page d.next) hok hB hbm T.sim hP T.cap x (hq q rfl) i1 (by omega)
      (fun l h1 h2 => by omega)
    simp only [step] at e
    rw [e1] at e
    simp only [Res.ok_bind] at e
    cases e
    have := T.room.sum
    simp only [Spec.opReads]
    omega

/-- C59, whole histories (`_partial`: as above).  The number of pages read since the table was opened is at most one for each
insert, `2 * maxErr + 1` for each lookup and the size of the file for each scan. -/
theorem C59_history_reads_partial (c : Cfg) (lo K : Nat) (ops : List Op) (rb : Page) (sm : Nat → Nat × Nat) (x : Idx)
    (hok : c.Ok K) (hB : Bounds c lo K ops.length) (h255 : c.maxRec ≤ 255) (hC : Client c lo K ops)
    (hS : NoStale c (Data.fresh c rb sm) x ops)
    (hR : ops.length ≤ c.splSize ∨ (c.noClean = false ∧ c.N + 2 ≤ c.splSize)) (hbm : c.useBmap = false) :
    ∃ d, runOps c (Data.fresh c rb sm) x ops = .ok (d, x) ∧
      d.numReads ≤ Spec.totalReads (2 * c.maxErr + 1) c.N ops := by
  obtain ⟨d, h1, h2, h3, h4⟩ := runOps_ok (m := 0) hok (Or.inl rfl) hB h255
    (G := fun d x os => NoStale c d x os ∧ Head c d ∧ d.next + os.length ≤ ops.length ∧
      d.numReads + Spec.totalReads (2 * c.maxErr + 1) c.N os ≤ Spec.totalReads (2 * c.maxErr + 1) c.N ops)
    (fun d L x op ops g _ hc => g.1.1 hc)
    (fun d L x op os d' x' o g T C e => by
      obtain ⟨g1, g2, g3, g4⟩ := g
      rw [List.length_cons] at g3
      have g2' := g2
      obtain ⟨s1, s2⟩ := g2.step hok hB h255 hR T (by omega) (fun k hk => C.get k (by rw [hk]; simp))
        (fun q hq => C.scan q (by rw [hq]; simp)) e
      have := step_reads hok hB hbm T g2' (by omega) (fun k hk => C.get k (by rw [hk]; simp))
        (fun q hq => (C.scan q (by rw [hq]; simp)).1) e
      have h : Spec.totalReads (2 * c.maxErr + 1) c.N (op :: os) =
        Spec.opReads (2 * c.maxErr + 1) c.N op + Spec.totalReads (2 * c.maxErr + 1) c.N os := by
        simp [Spec.totalReads]
      exact ⟨g1.2 d' x' o e, s1, by omega, by omega⟩)
    ops (Data.fresh c rb sm) x Log.empty (fresh_table hok rb sm) (by simp [Data.fresh]) hC (by simp [Log.all, Log.empty])
    ⟨hS, Head.fresh rb sm, by simp [Data.fresh], by simp [Data.fresh]⟩
  have h5 : Spec.totalReads (2 * c.maxErr + 1) c.N [] = 0 := rfl
  have := h4.2.2.2
  exact ⟨d, h1, by omega⟩

/-! ### The hypotheses can be met -/

/-- The demo table with room for eight spline points. -/
def spaceCfg : Cfg := { demo with splSize := 8 }

theorem spaceCfg_ok (K : Nat) : spaceCfg.Ok K where
  B0 := by decide
  dvd := by decide
  two := by decide
  page := by decide
  cap := by decide
  cap16 := by decide
  spl := by decide
  layout := ⟨by decide, by decide, fun _ _ h => h⟩
  cmp := demo_cmp K
  plain := rfl
  spline := rfl
  io _ := rfl

/-- Twelve inserts, a flush and some reads: the file of four pages wraps, the spline always has room. -/
example : spaceCfg.Ok 1000 ∧ Bounds spaceCfg 0 1000 (demoPuts ++ [Op.flush] ++ demoReads).length ∧ spaceCfg.maxRec ≤ 255 ∧
    Client spaceCfg 0 1000 (demoPuts ++ [Op.flush] ++ demoReads) ∧
    NoStale spaceCfg (Data.fresh spaceCfg (fun _ => 0) (fun _ => (0, 0))) noIdx (demoPuts ++ [Op.flush] ++ demoReads) ∧
    (spaceCfg.noClean = false ∧ spaceCfg.N + 2 ≤ spaceCfg.splSize) ∧ spaceCfg.useBmap = false := by
  have C : Client spaceCfg 0 1000 (demoPuts ++ [Op.flush] ++ demoReads) :=
    ⟨demo_client.asc, demo_client.put, demo_client.get, demo_client.scan⟩
  have B : Bounds demo 0 1000 (demoPuts ++ [Op.flush] ++ demoReads).length := demo_bounds (by decide) (by decide)
  exact ⟨spaceCfg_ok _, ⟨B.prod, B.pages, B.key⟩, by decide, C,
    NoStale.of_phased (K := 1000) (lo := 0) (spaceCfg_ok _) _ _ _ ⟨demoPuts, [Op.flush], demoReads, rfl, by
      simp [demoPuts, Op.isPut], by simp, by simp [demoReads, Op.isRead], fun _ => rfl, fun _ => Or.inr rfl⟩ C,
    by decide, rfl⟩

/-- A scan for keys 6 to 8 of that table reads the two pages that hold such keys and the page after them. -/
example : ((runOps spaceCfg (Data.fresh spaceCfg (fun _ => 0) (fun _ => (0, 0))) noIdx (demoPuts ++ [Op.flush])).check
    fun (d, _) => (scanAll spaceCfg d noIdx ⟨some 6, some 8, none, none⟩).check fun (d', _, rs) =>
      decide (d'.numReads = d.numReads + 3 ∧ d.min = 2 ∧ d.next = 6 ∧ rs.map Prod.fst = [6, 7, 8])) = true := by
  decide +kernel

/-- An insert that erases a block and writes a page. -/
example : ((runOps spaceCfg (Data.fresh spaceCfg (fun _ => 0) (fun _ => (0, 0))) noIdx (demoPuts.take 10)).check
    fun (d, _) => (putD spaceCfg d 50 (dat 9) 0).check fun (d', r, w) =>
      decide (d'.dev.log.length = d.dev.log.length + 2 ∧ r = 0 ∧ w = true)) = true := by
  decide +kernel

end EDB
