import Verif.Proofs.IdxCost
import Verif.Props.Index
import Verif.Props.IdxRecovery
import Verif.Props.Stats

/-! # C76: the bitmap index saves reading pages that cannot match -/

namespace EDB

open Spec (Log Range Op Out)

/-- The cost of a scan of a table that represents a log. -/
theorem scanAll_idx_cost {c : Cfg} {lo K a P : Nat} {L : Log} (hx : c.IdxOk) (hB0 : 0 < c.B) (hb : c.bitmapSize ≤ 8)
    (hc : CmpOk c.cmpKey K) (hB : Bounds c lo K P) (hbs : c.binSearch = false) {d d' : Data} {x x' : Idx}
    (S : Sim c lo K a d L) (I : IdxInv c x L) (hP : d.next ≤ P) {q : Range} (hq : KeysOk K q)
    (hd : q.minData.isSome = true ∨ q.maxData.isSome = true) {rs : List Rec} (e : scanAll c d x q = .ok (d', x', rs)) :
    d'.numReads ≤ d.numReads +
      Spec.toRead (fun l => Spec.pageBitmap c.updBm (List.replicate c.bitmapSize 0) (L.pages.getD l []))
        (c.buildBm q.minData q.maxData) (x.min * c.maxIdx) (x.next * c.maxIdx) d.min L.pages.length := by
  obtain ⟨it, i1, i2, i3, i4, i5, i6, -⟩ := initIter_idx hc hB hbs S hP hq
  unfold scanAll at e
  rw [i1, Res.ok_bind] at e
  obtain ⟨⟨d1, x1, it1, rs1⟩, h1, e⟩ := Res.bind_eq_ok e
  cases e
  have hqb : it.qbm = some (c.buildBm q.minData q.maxData) := by
    rw [initIter_bmap] at i1
    obtain ⟨it0, -, e0⟩ := Res.bind_eq_ok i1
    simp only [Res.ok.injEq] at e0
    rw [← e0]
    simp only
    rw [if_pos (by rw [hx.bmap]; simpa using hd)]
  have h := collect_idx_cost hx hB0 _ d x it I hqb i3 (fun _ h => by omega) _ _ _ _ h1
  have hm := leftFrom_mono (c := c) (L := L) (x := x) (n := d.next) (qb := c.buildBm q.minData q.maxData) i5
  unfold leftOf at h
  rw [if_neg (by omega)] at h
  have e2 : leftFrom c L x d.next (c.buildBm q.minData q.maxData) d.min = Spec.toRead
      (fun l => Spec.pageBitmap c.updBm (List.replicate c.bitmapSize 0) (L.pages.getD l []))
        (c.buildBm q.minData q.maxData) (x.min * c.maxIdx) (x.next * c.maxIdx) d.min L.pages.length := by
    unfold leftFrom bmOf
    rw [initBm_zero hb, S.next]
  omega

/-- C76 (`_partial`: under the conditions of C23 and for bitmaps of at most 8 bytes).  A scan with a bound on the data of a
table with a bitmap index gives the right records, and of the pages kept it reads at most those whose bitmap is not on
file and those whose bitmap, made of the data of their records, meets the bitmap of the query: a page whose bitmap is
on file and does not meet it is not read.  The bitmaps of at most one index page are not yet on file. -/
theorem C76_reads_partial (c : Cfg) (lo K : Nat) (ops : List Op) (rb rb' : Page) (sm : Nat → Nat × Nat)
    (hok : c.Ok K) (hx : c.IdxOk) (hb : c.bitmapSize ≤ 8) (hB : Bounds c lo K ops.length) (h255 : c.maxRec ≤ 255)
    (hC : ClientX c lo K ops) (hS : SafeX c (Data.fresh c rb sm) (Idx.fresh c rb') ops) (q : Range) (hq : KeysOk K q)
    (hd : q.minData.isSome = true ∨ q.maxData.isSome = true) :
    let L := Spec.logAfter c.maxRec Log.empty (historyX c (Data.fresh c rb sm) (Idx.fresh c rb') ops)
    ∃ d x d' x', runOpsX c (Data.fresh c rb sm) (Idx.fresh c rb') ops = .ok (d, x) ∧
      scanAll c d x q = .ok (d', x', Spec.scan c.cmpData q (L.live (Spec.dropped c.N c.B L.pages.length))) ∧
      d'.numReads ≤ d.numReads +
        Spec.toRead (fun l => Spec.pageBitmap c.updBm (List.replicate c.bitmapSize 0) (L.pages.getD l []))
          (c.buildBm q.minData q.maxData) (x.min * c.maxIdx) (x.next * c.maxIdx)
          (Spec.dropped c.N c.B L.pages.length) L.pages.length ∧
      x.next * c.maxIdx ≤ L.pages.length ∧ L.pages.length ≤ x.next * c.maxIdx + c.maxIdx := by
  intro L
  obtain ⟨d, x, h1, T, h3, hal⟩ := runOpsX_ok (m := 0) hok hx (Or.inl rfl) hB h255 ops _ _ Log.empty
    (fresh_tableX (lo := lo) hok rb rb' sm) (fresh_aligned c rb rb' sm) (by simp [Data.fresh]) hC (by simp [Log.all, Log.empty]) hS
  have hP : d.next ≤ ops.length := by simpa [Data.fresh] using h3
  obtain ⟨d', x', e, _⟩ := scanAll_idx hx hok.B0 hok.cmp hok.N0 hB hok.spline T.table.sim T.idx hP T.table.cap hq
  have hm := T.table.dropped_max hok.B0 (dvd_zero _)
  rw [Nat.zero_max] at hm
  have hcost := scanAll_idx_cost hx hok.B0 hb hok.cmp hB hok.spline T.table.sim T.idx hP hq hd e
  have hn : d.next = L.pages.length := T.table.sim.next
  have hc1 := T.idx.cnt
  unfold Aligned at hal
  rw [hm] at e hcost
  exact ⟨d, x, d', x', h1, e, hcost, by omega, by omega⟩

/-- C76 (`_partial`).  The same after any life of the table and its index file, with power failures and reopenings (C54).
Pages whose bitmaps were lost by a power failure may all have to be read. -/
theorem C76_life_partial {c : Cfg} {lo K P : Nat} {d : Data} {x : Idx} {L : Log} (D : DurableX c lo K P)
    (h : LifeX c lo K P d x L) (hb : c.bitmapSize ≤ 8) (q : Range) (hq : KeysOk K q)
    (hd : q.minData.isSome = true ∨ q.maxData.isSome = true) :
    ∃ d' x', scanAll c d x q = .ok (d', x', Spec.scan c.cmpData q (L.live d.min)) ∧
      d'.numReads ≤ d.numReads +
        Spec.toRead (fun l => Spec.pageBitmap c.updBm (List.replicate c.bitmapSize 0) (L.pages.getD l []))
          (c.buildBm q.minData q.maxData) (x.min * c.maxIdx) (x.next * c.maxIdx) d.min L.pages.length := by
  obtain ⟨J, hlt, F, m, hm, hdv, hm1, hm2, T⟩ := D.life h
  obtain ⟨d', x', e, _⟩ := scanAll_idx D.idx D.ok.B0 D.ok.cmp D.ok.N0 D.bounds D.ok.spline T.table.sim T.idx (by omega) T.table.cap hq
  exact ⟨d', x', e, scanAll_idx_cost D.idx D.ok.B0 hb D.ok.cmp D.bounds D.ok.spline T.table.sim T.idx (by omega) hq hd e⟩

/-! ## The hypotheses are satisfiable

The example of C23 in `Props/Index` runs the same operations: of the four pages kept the scan reads two.  A life for
`C76_life_partial` is the example of C54 in `Props/IdxRecovery`. -/

example : demoIdx.Ok 100 ∧ demoIdx.IdxOk ∧ demoIdx.bitmapSize ≤ 8 ∧ Bounds demoIdx 0 100 demoIdxPuts.length ∧
    demoIdx.maxRec ≤ 255 ∧ ClientX demoIdx 0 100 demoIdxPuts ∧ SafeX demoIdx demoIdx0 demoIdxX0 demoIdxPuts ∧
    KeysOk 100 hot ∧ (hot.minData.isSome = true ∨ hot.maxData.isSome = true) := by
  have hC : ClientX demoIdx 0 100 demoIdxPuts := by
    refine ⟨by decide +kernel, ?_, ?_, ?_⟩
    · intro k v h
      simp only [demoIdxPuts, List.mem_map, List.mem_range] at h
      obtain ⟨i, hi, e⟩ := h
      cases e
      exact ⟨Nat.zero_le _, by omega, rfl⟩
    · intro k h
      simp [demoIdxPuts] at h
    · intro q h
      simp [demoIdxPuts] at h
  refine ⟨demoIdx_ok _, demoIdx_idxOk, by decide, demoIdx_bounds (by decide) (by decide), by decide, hC, ?_,
    ⟨by simp [hot], by simp [hot]⟩, Or.inl rfl⟩
  exact PhasedX.safe (demoIdx_ok 100) _ _ _ ⟨demoIdxPuts, [], by simp, by simp [demoIdxPuts, Op.isPut], by simp,
    fun _ => ⟨rfl, rfl, Or.inr rfl⟩⟩ hC

end EDB
