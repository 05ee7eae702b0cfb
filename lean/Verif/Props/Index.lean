import Verif.Proofs.IdxScan
import Verif.Props.Bitmaps
import Verif.Props.Scans

/-!
# C23: the bitmap index never hides a matching record
-/

namespace EDB

open Spec (Log Range Op Out)

/-- C23 (`_partial`): a table with an index file and any sound pair of bitmap functions.  After every history of inserts,
flushes, lookups and scans in which (`SafeX`) a flush only happens when its page is the last one described by the
current index page and no page is overwritten while it is in a read cache, every scan by any key and data bounds returns
exactly the retained records within the bounds, the same rows as the scan of the same state that does not consult the
index.
Missing: other flushes (`C23_false_flush`, `C23_false_flush_full`) and stale caches after wrap-around
(`C23_false_stale_index`, `C05_false_stale_cache`). -/
theorem C23_scan_partial (c : Cfg) (lo K : Nat) (ops : List Op) (rb rb' : Page) (sm : Nat → Nat × Nat)
    (hok : c.Ok K) (hx : c.IdxOk) (hB : Bounds c lo K ops.length) (h255 : c.maxRec ≤ 255) (hC : ClientX c lo K ops)
    (hS : SafeX c (Data.fresh c rb sm) (Idx.fresh c rb') ops) (q : Range) (hq : KeysOk K q) :
    let L := Spec.logAfter c.maxRec Log.empty (historyX c (Data.fresh c rb sm) (Idx.fresh c rb') ops)
    ∃ d x d' x' d'', runOpsX c (Data.fresh c rb sm) (Idx.fresh c rb') ops = .ok (d, x) ∧
      scanAll c d x q = .ok (d', x', Spec.scan c.cmpData q (L.live (Spec.dropped c.N c.B L.pages.length))) ∧
      scanAll { c with useBmap := false } d x q =
        .ok (d'', x, Spec.scan c.cmpData q (L.live (Spec.dropped c.N c.B L.pages.length))) := by
  obtain ⟨d, x, h1, T, h3, -⟩ := runOpsX_ok (m := 0) hok hx (Or.inl rfl) hB h255 ops _ _ Log.empty
    (fresh_tableX (lo := lo) hok rb rb' sm) (fresh_aligned c rb rb' sm) (by simp [Data.fresh]) hC (by simp [Log.all, Log.empty]) hS
  have hP : d.next ≤ ops.length := by simpa [Data.fresh] using h3
  obtain ⟨d', x', e, _⟩ := scanAll_idx hx hok.B0 hok.cmp hok.N0 hB hok.spline T.table.sim T.idx hP T.table.cap hq
  have S := T.table.sim
  have S' : Sim { c with useBmap := false } lo K 0 d
      (Spec.logAfter c.maxRec Log.empty (historyX c (Data.fresh c rb sm) (Idx.fresh c rb') ops)) :=
    ⟨S.next, S.amin, S.minle, S.live, S.window, S.stored, S.buf, S.full, S.sorted, S.bound, S.spl, S.err, S.cacheN, S.cache⟩
  obtain ⟨d'', e', _⟩ := scanAll_ok (c := { c with useBmap := false }) (lo := lo) hok.cmp hok.N0
    ⟨hB.prod, hB.pages, hB.key⟩ hok.spline rfl S' hP T.table.cap x hq
  refine ⟨d, x, d', x', d'', h1, ?_, ?_⟩
  · rw [e, T.table.dropped hok.B0]
  · rw [e', T.table.dropped hok.B0]

/-- C23 (`_partial`): the same in terms of what a client observes: every result of such a history is the one the log of
accepted records prescribes. -/
theorem C23_history_partial (c : Cfg) (lo K : Nat) (ops : List Op) (rb rb' : Page) (sm : Nat → Nat × Nat)
    (hok : c.Ok K) (hx : c.IdxOk) (hB : Bounds c lo K ops.length) (h255 : c.maxRec ≤ 255) (hC : ClientX c lo K ops)
    (hS : SafeX c (Data.fresh c rb sm) (Idx.fresh c rb') ops) :
    Spec.Run (fun _ => True) (fun l => l.live (Spec.dropped c.N c.B l.pages.length)) c.maxRec c.cmpData Log.empty
      (historyX c (Data.fresh c rb sm) (Idx.fresh c rb') ops) :=
  historyX_ok (m := 0) hok hx (Or.inl rfl) (dvd_zero _) hB h255 (fun l _ => by rw [Nat.zero_max])
    (G := fun d x ops => SafeX c d x ops) (fun d L x op ops g _ _ => g.1) (fun d L x op ops d' x' o g _ _ e => g.2 d' x' o e)
    ops _ _ Log.empty (fresh_tableX hok rb rb' sm) (fresh_aligned c rb rb' sm) trivial (by simp [Data.fresh]) hC (by simp [Log.all, Log.empty]) hS

/-- C23 (`_partial`): any number of inserts (data file and index file may wrap any number of times), then any number of
lookups and scans: every result is correct.  No hypothesis about the state is needed. -/
theorem C23_inserts_then_reads_partial (c : Cfg) (lo K : Nat) (ps rs : List Op) (rb rb' : Page) (sm : Nat → Nat × Nat)
    (hok : c.Ok K) (hx : c.IdxOk) (hB : Bounds c lo K (ps ++ rs).length) (h255 : c.maxRec ≤ 255)
    (hC : ClientX c lo K (ps ++ rs)) (hp : ∀ op ∈ ps, op.isPut) (hr : ∀ op ∈ rs, op.isRead) :
    Spec.Run (fun _ => True) (fun l => l.live (Spec.dropped c.N c.B l.pages.length)) c.maxRec c.cmpData Log.empty
      (historyX c (Data.fresh c rb sm) (Idx.fresh c rb') (ps ++ rs)) :=
  C23_history_partial c lo K _ rb rb' sm hok hx hB h255 hC
    (PhasedX.safe hok _ _ _ ⟨ps, rs, rfl, hp, hr, fun _ => ⟨rfl, rfl, Or.inr rfl⟩⟩ hC)

/-- C23 (`_partial`): any interleaving of inserts, lookups and scans (no flush), as long as the pages fit into the data
file and their bitmaps into the index file: every result is correct. -/
theorem C23_unwrapped_partial (c : Cfg) (lo K : Nat) (ops : List Op) (rb rb' : Page) (sm : Nat → Nat × Nat)
    (hok : c.Ok K) (hx : c.IdxOk) (hB : Bounds c lo K ops.length) (h255 : c.maxRec ≤ 255) (hC : ClientX c lo K ops)
    (hf : Op.flush ∉ ops) :
    Spec.Run (fun l => l.pages.length ≤ c.N ∧ l.pages.length ≤ c.numIdx * c.maxIdx) Log.all c.maxRec c.cmpData Log.empty
      (historyX c (Data.fresh c rb sm) (Idx.fresh c rb') ops) :=
  historyX_ok (m := 0) hok hx (Or.inl rfl) (dvd_zero _) hB h255
    (fun l hl => by rw [Nat.zero_max]; unfold Spec.dropped; rw [if_pos hl.1, Log_live_zero])
    (G := fun _ _ ops => Op.flush ∉ ops)
    (fun d L x op ops g T hl => unwrappedX_safe hok hx T (fun h => g (by simp [h])) hl.1 hl.2)
    (fun d L x op ops d' x' o g _ _ _ h => g (by simp [h]))
    ops _ _ Log.empty (fresh_tableX hok rb rb' sm) (fresh_aligned c rb rb' sm) ⟨by simp [Log.empty], by simp [Log.empty]⟩ (by simp [Data.fresh]) hC
    (by simp [Log.all, Log.empty]) hf

/-! ## The supplied 8-bucket bitmap is sound -/

/-- The `int16_t` at the start of the data. -/
def int16At (v : List Byte) : Int :=
  let n := leNat (v.take 2)
  if n < 32768 then n else (n : Int) - 65536

/-- `updateBitmapInt8` on a bitmap of one byte. -/
def updBytes8 (v b : List Byte) : List Byte := [⟨updateBitmapInt8 (int16At v) (b.getD 0 0).toBitVec⟩]

/-- `buildBitmapInt8FromRange` as one byte. -/
def buildBytes8 (mn mx : Option (List Byte)) : List Byte :=
  [⟨buildBitmapInt8FromRange (mn.map int16At) (mx.map int16At)⟩]

theorem meets_one (a b : BitVec 8) : Spec.Meets [⟨a⟩] [⟨b⟩] ↔ Spec.overlap b a := by
  have h : ∀ u v : BitVec 8, ((⟨u⟩ : UInt8) &&& ⟨v⟩ ≠ 0) ↔ Spec.overlap v u := by
    intro u v
    have e : ((⟨u⟩ : UInt8) &&& ⟨v⟩ = 0) ↔ u &&& v = 0#8 := by
      constructor
      · intro h; exact congrArg UInt8.toBitVec h
      · intro h; exact UInt8.toBitVec_inj.mp h
    rw [ne_eq, e]
    constructor
    · intro hne
      by_contra hcon
      apply hne
      apply BitVec.eq_of_getLsbD_eq
      intro i _
      rw [BitVec.getLsbD_and]
      by_contra hb
      apply hcon
      simp only [BitVec.getLsbD_zero, Bool.not_eq_false, Bool.and_eq_true] at hb
      exact ⟨i, hb.2, hb.1⟩
    · rintro ⟨i, h1, h2⟩ h0
      have := congrArg (fun b => b.getLsbD i) h0
      simp [BitVec.getLsbD_and, h1, h2] at this
  unfold Spec.Meets
  rw [← h]
  constructor
  · rintro ⟨i, hi⟩
    rcases i with _ | i
    · simpa using hi
    · exact absurd (by simp) hi
  · intro h
    exact ⟨0, by simpa using h⟩

/-- The supplied functions with 8 buckets are sound for every comparator that orders the data by its first two bytes. -/
theorem sound8 (dlen : Nat) (cmp : List Byte → List Byte → Int) (h1 : ∀ v b, 0 ≤ cmp v b → int16At b ≤ int16At v)
    (h2 : ∀ v b, cmp v b ≤ 0 → int16At v ≤ int16At b) : Spec.SoundBitmap 1 dlen cmp updBytes8 buildBytes8 where
  len _ _ _ := rfl
  keep mn mx v b _ hb hm := by
    obtain ⟨b0, rfl⟩ : ∃ b0, b = [b0] := List.length_eq_one_iff.mp hb
    obtain ⟨b0⟩ := b0
    unfold buildBytes8 updBytes8 at *
    rw [meets_one] at hm ⊢
    obtain ⟨i, i1, i2⟩ := hm
    refine ⟨i, ?_, i2⟩
    simp only [List.getD_cons_zero]
    rw [update8_eq, BitVec.getLsbD_or, i1, Bool.true_or]
  hit mn mx v b _ hb hw := by
    unfold buildBytes8 updBytes8
    rw [meets_one]
    have := C24_int8_sound (b.getD 0 0).toBitVec [int16At v] (mn.map int16At) (mx.map int16At) (int16At v) (by simp) (by
      unfold Spec.within at hw
      rw [Bool.and_eq_true] at hw
      constructor
      · intro lo hlo
        cases mn with
        | none => simp at hlo
        | some b =>
          simp only [Option.map_some, Option.some.injEq] at hlo
          rw [← hlo]
          exact h1 v b (by simpa using hw.1)
      · intro hi hhi
        cases mx with
        | none => simp at hhi
        | some b =>
          simp only [Option.map_some, Option.some.injEq] at hhi
          rw [← hhi]
          exact h2 v b (by simpa using hw.2))
    exact this

/-! ## A concrete table with an index -/

/-- As `demo`, with an index file of 4 pages and the supplied 8-bucket functions: two records per data page, ten bitmaps
per index page. -/
def demoIdx : Cfg := { demo with
  bitmapSize := 1, numIdx := 4, useIndex := true, useBmap := true
  cmpData := fun a b => Spec.cmp3 (int16At a) (int16At b), updBm := updBytes8, buildBm := buildBytes8 }

theorem demoIdx_ok (K : Nat) : demoIdx.Ok K where
  B0 := by decide
  dvd := by decide
  two := by decide
  page := by decide
  cap := by decide
  cap16 := by decide
  spl := by decide
  layout := ⟨by decide, by decide, fun _ _ _ => rfl⟩
  cmp := demo_cmp K
  plain := rfl
  spline := rfl
  io _ := rfl

theorem demoIdx_idxOk : demoIdx.IdxOk where
  sound := sound8 4 _
    (by intro v b; show 0 ≤ Spec.cmp3 _ _ → _; unfold Spec.cmp3; split_ifs <;> intro h <;> omega)
    (by intro v b; show Spec.cmp3 _ _ ≤ 0 → _; unfold Spec.cmp3; split_ifs <;> intro h <;> omega)
  bmap := rfl
  index := rfl
  maxMin := by decide
  bm0 := by decide
  cap := by decide
  page := by decide
  dvd := by decide
  two := by decide

theorem demoIdx_bounds {lo K P : Nat} (hK : K ≤ 2 ^ 32) (hP : P < 2 ^ 30) : Bounds demoIdx lo K P :=
  have h := demo_bounds (lo := lo) hK hP
  ⟨h.prod, h.pages, h.key⟩

/-- A new table with an index. -/
def demoIdx0 : Data := Data.fresh demoIdx (fun _ => 0) (fun _ => (0, 0))

/-- Its index. -/
def demoIdxX0 : Idx := Idx.fresh demoIdx (fun _ => 0)

/-- Twenty-six inserts (the first index page gets written, old data pages are dropped). -/
def demoIdxPuts : List Op := (List.range 26).map fun i => .put (i + 1) (dat (UInt8.ofNat (i % 8 * 12)))

/-- Records with data at least 80. -/
def hot : Range := ⟨none, none, some (dat 80), none⟩

/-- The hypotheses of `C23_inserts_then_reads_partial` are met by a run in which the index is consulted and skips a
page: the filtered scan does not read every retained page. -/
example : ClientX demoIdx 0 100 (demoIdxPuts ++ [.scan hot]) ∧
    (∃ d x d' x', runOpsX demoIdx demoIdx0 demoIdxX0 demoIdxPuts = .ok (d, x) ∧ x.next = 1 ∧ d.next = 12 ∧ d.min = 8 ∧
      scanAll demoIdx d x hot = .ok (d', x', [(24, dat 84)]) ∧ d'.numReads = d.numReads + 2) := by
  refine ⟨⟨by decide +kernel, ?_, ?_, ?_⟩, ?_⟩
  · intro k v h
    simp only [demoIdxPuts, List.mem_append, List.mem_map, List.mem_range, List.mem_singleton] at h
    rcases h with ⟨i, hi, e⟩ | h
    · cases e
      exact ⟨Nat.zero_le _, by omega, rfl⟩
    · cases h
  · intro k h
    simp [demoIdxPuts] at h
  · intro q h
    simp only [demoIdxPuts, List.mem_append, List.mem_map, List.mem_range, List.mem_singleton] at h
    rcases h with ⟨i, hi, e⟩ | h
    · cases e
    · cases h
      exact ⟨by simp [hot], by simp [hot]⟩
  · have h : ((runOpsX demoIdx demoIdx0 demoIdxX0 demoIdxPuts).check fun (d, x) =>
        decide (x.next = 1 ∧ d.next = 12 ∧ d.min = 8) && ((scanAll demoIdx d x hot).check fun (d', _, rs) =>
          decide (rs = [(24, dat 84)] ∧ d'.numReads = d.numReads + 2))) = true := by decide +kernel
    obtain ⟨⟨d, x⟩, h1, h2⟩ := Res.check_ok h
    rw [Bool.and_eq_true] at h2
    obtain ⟨⟨d', x', rs⟩, h3, h4⟩ := Res.check_ok h2.2
    obtain ⟨a1, a2, a3⟩ := of_decide_eq_true h2.1
    obtain ⟨b1, b2⟩ := of_decide_eq_true h4
    subst b1
    exact ⟨d, x, d', x', h1, a1, a2, a3, h3, b2⟩

end EDB
