import Verif.Proofs.Honest
import Verif.Props.Fault
import Verif.Props.Rlc
import Verif.Findings.Table
import Verif.Proofs.DemoVar

/-!
# C63: nothing but what was inserted
-/

namespace EDB

open Spec (Rec Range Op FOp MOp MOut)

/-- C63 (`_partial`).  For a table with spline or binary search, with or without index file, variable data and
record-level consistency, whatever happened before — keys offered in any order, writes and erases refused, reads failing
during lookups and iterators, pages overwritten while cached, power failures at any storage operation and recoveries with
any result —: an operation that returns has a genuine result.  A lookup that returns 0 delivers data inserted under this
very key; a scan or iterator delivers only records that were inserted and lie within its bounds.

Missing: that the records are still retained, and come once and in order (C05–C08, C58 without such failures; false in
general, `C42_false_retry`); erases that leave a page readable but full of garbage; reads that fail after overwriting the
buffer (`C58_false_torn`); writes cut off in the middle of a page; the bytes of variable data (`C64`, `C49`). -/
theorem C63_result_partial (c : Cfg) (K : Nat) (hL : c.Layout) (hcap0 : 0 < c.maxRec) (hcap : c.maxRec ≤ 65535)
    (hE : ∀ o q, c.eraseFx o = some q → ∀ r ∈ Spec.pageRecs c.hdr c.recSize c.keySize c.dataSize q,
      ∃ p, o = some p ∧ r ∈ Spec.pageRecs c.hdr c.recSize c.keySize c.dataSize p)
    (hK : K ≤ 256 ^ c.keySize) (hcmp : CmpOk c.cmpKey K) (d d' : Data) (x x' : Idx) (its its' : Nat → Option Iter)
    (b : Nat → Option Range) (S : List Rec) (op : FOp) (o : MOut) (h : Past c K d its b S) (hf : FOp.Fits c K op)
    (e : fstep (stepX c) c d x its op = .ok (d', x', its', o)) : Spec.Genuine c.cmpData S b op o :=
  ((h.known hL hcap0 hcap (EraseFine.of hE) hK hcmp).step hL hcap0 hcap (EraseFine.of hE) hK hcmp hf e).2

/-- C63 (`_partial`).  The same for everything a client sees from such a state on. -/
theorem C63_history_partial (c : Cfg) (K : Nat) (hL : c.Layout) (hcap0 : 0 < c.maxRec) (hcap : c.maxRec ≤ 65535)
    (hE : ∀ o q, c.eraseFx o = some q → ∀ r ∈ Spec.pageRecs c.hdr c.recSize c.keySize c.dataSize q,
      ∃ p, o = some p ∧ r ∈ Spec.pageRecs c.hdr c.recSize c.keySize c.dataSize p)
    (hK : K ≤ 256 ^ c.keySize) (hcmp : CmpOk c.cmpKey K) (ops : List FOp) : ∀ (d : Data) (x : Idx) (its : Nat → Option Iter)
    (b : Nat → Option Range) (S : List Rec), Past c K d its b S → (∀ op ∈ ops, FOp.Fits c K op) →
    Spec.GenuineRun c.cmpData S b (fhistory (stepX c) c d x its ops) := by
  induction ops with
  | nil => intros; trivial
  | cons op ops ih =>
    intro d x its b S h hf
    unfold fhistory
    have hf1 := hf op List.mem_cons_self
    cases e : fstep (stepX c) c d x its op with
    | ok y =>
      obtain ⟨d', x', its', o⟩ := y
      exact ⟨C63_result_partial c K hL hcap0 hcap hE hK hcmp _ _ _ _ _ _ _ _ _ _ h hf1 e,
        ih _ _ _ _ _ (h.op hf1 e) (fun op h => hf op (List.mem_cons_of_mem _ h))⟩
    | ub => trivial
    | fuel => trivial

/-- C63 (`_partial`).  The same for a lookup with variable data (which returns 0, or 1 if the variable data is gone, when
it has found the record): the fixed-size part is the one inserted under this key.

Missing: as before; the variable data itself. -/
theorem C63_getVar_partial (c : Cfg) (K : Nat) (hL : c.Layout) (hcap0 : 0 < c.maxRec) (hcap : c.maxRec ≤ 65535)
    (hE : ∀ o q, c.eraseFx o = some q → ∀ r ∈ Spec.pageRecs c.hdr c.recSize c.keySize c.dataSize q,
      ∃ p, o = some p ∧ r ∈ Spec.pageRecs c.hdr c.recSize c.keySize c.dataSize p)
    (hK : K ≤ 256 ^ c.keySize) (hcmp : CmpOk c.cmpKey K) (hv : c.useVdata = true) (d d' : Data) (v v' : Var)
    (its : Nat → Option Iter) (b : Nat → Option Range) (S : List Rec) (k : Nat) (bad : List Nat) (r : Int)
    (out : Option (List Byte)) (st : Option Stream) (h : Past c K d its b S) (hk : k < K)
    (e : getVar c (d.without bad) v k = .ok (d', v', r, out, st)) :
    (r = 0 ∨ r = 1 → out ≠ none) ∧ ∀ w, out = some w → (k, w) ∈ S := by
  have H := h.known hL hcap0 hcap (EraseFine.of hE) hK hcmp
  obtain ⟨-, g2, g3⟩ := (H.honest.without bad).getVar e
  refine ⟨g2 hv, fun w hw => ?_⟩
  obtain ⟨k', hm, hc⟩ := g3 w hw
  rw [(hcmp.eq k' k (H.keys _ hm) hk).mp hc] at hm
  exact hm

/-- C63 (`_partial`).  The same for an iterator step with variable data.

Missing: as before; the variable data itself. -/
theorem C63_nextVar_partial (c : Cfg) (K : Nat) (hL : c.Layout) (hcap0 : 0 < c.maxRec) (hcap : c.maxRec ≤ 65535)
    (hE : ∀ o q, c.eraseFx o = some q → ∀ r ∈ Spec.pageRecs c.hdr c.recSize c.keySize c.dataSize q,
      ∃ p, o = some p ∧ r ∈ Spec.pageRecs c.hdr c.recSize c.keySize c.dataSize p)
    (hK : K ≤ 256 ^ c.keySize) (hcmp : CmpOk c.cmpKey K) (d d' : Data) (x x' : Idx) (v v' : Var)
    (its : Nat → Option Iter) (b : Nat → Option Range) (S : List Rec) (i : Nat) (bad : List Nat) (it it' : Iter)
    (w : Rec) (st : Option Stream) (h : Past c K d its b S) (hi : its i = some it)
    (e : nextVar c (d.without bad) x v it = .ok (d', x', v', it', some (w, st))) :
    w ∈ S ∧ ∃ q, b i = some q ∧ q.has c.cmpData w = true := by
  have H := h.known hL hcap0 hcap (EraseFine.of hE) hK hcmp
  obtain ⟨-, g2, -⟩ := (H.honest.without bad).nextVar e
  obtain ⟨q, hq, hb, hkk⟩ := H.its i it hi
  obtain ⟨m1, m2⟩ := g2 w st rfl
  exact ⟨m1, q, hq, m2.has hcmp hb hkk (H.keys _ m1)⟩

/-! ### The hypotheses are satisfiable -/

/-- The state after some operations, the bounds of the iterators and the records inserted. -/
def fend (c : Cfg) : Data → Idx → (Nat → Option Iter) → (Nat → Option Range) → List Rec → List FOp →
    Option (Data × (Nat → Option Iter) × (Nat → Option Range) × List Rec)
  | d, _, its, b, S, [] => some (d, its, b, S)
  | d, x, its, b, S, op :: ops =>
    match fstep (stepX c) c d x its op with
    | .ok (d', x', its', o) => fend c d' x' its' (Spec.boundsAfter b op) (S ++ Spec.gainedF op o) ops
    | _ => none

theorem Past.run {c : Cfg} {K : Nat} : ∀ (ops : List FOp) (d : Data) (x : Idx) (its : Nat → Option Iter) (b : Nat → Option Range)
    (S : List Rec), Past c K d its b S → (∀ op ∈ ops, FOp.Fits c K op) →
    ∀ y, fend c d x its b S ops = some y → Past c K y.1 y.2.1 y.2.2.1 y.2.2.2 := by
  intro ops
  induction ops with
  | nil => intro d x its b S h _ y e; cases e; exact h
  | cons op ops ih =>
    intro d x its b S h hf y e
    unfold fend at e
    have hf1 := hf op List.mem_cons_self
    split at e
    · rename_i e1
      exact ih _ _ _ _ _ (h.op hf1 e1) (fun op h => hf op (List.mem_cons_of_mem _ h)) y e
    · cases e

/-- A run, a power failure after `k` storage operations, and the same run again. -/
theorem Past.twice {c : Cfg} {K : Nat} {ops : List FOp} {x : Idx} (k : Nat) {rb : Page} {sm : Nat → Nat × Nat}
    (hf : ∀ op ∈ ops, FOp.Fits c K op) {p : Data × (Nat → Option Iter) × (Nat → Option Range) × List Rec → Bool}
    (h : ((fend c (Data.fresh c rb sm) x (fun _ => none) (fun _ => none) [] ops).any fun y =>
      (fend c (reopen c y.1.dev k rb sm).1 x (fun _ => none) (fun _ => none) y.2.2.2 ops).any p) = true) :
    ∃ d its b S, Past c K d its b S ∧ p (d, its, b, S) = true := by
  cases h1 : fend c (Data.fresh c rb sm) x (fun _ => none) (fun _ => none) [] ops with
  | none => rw [h1] at h; cases h
  | some y =>
    rw [h1, Option.any_some] at h
    cases h2 : fend c (reopen c y.1.dev k rb sm).1 x (fun _ => none) (fun _ => none) y.2.2.2 ops with
    | none => rw [h2] at h; cases h
    | some z =>
      rw [h2, Option.any_some] at h
      exact ⟨_, _, _, _, Past.run ops _ x _ _ _ ((Past.run ops _ x _ _ _ (Past.new rb sm) hf y h1).cut k rb sm) hf z h2, h⟩

/-- `FOp.Fits` by evaluation. -/
def FOp.fits (c : Cfg) (K : Nat) (op : FOp) : Bool :=
  (match op with | .plain (.op (.put k v)) => decide (k < K) && decide (v.length = c.dataSize) | _ => true) &&
  match op.base with
  | .op (.get k) => decide (k < K)
  | .op (.scan q) => q.minKey.all (· < K) && q.maxKey.all (· < K)
  | .opn _ q => q.minKey.all (· < K) && q.maxKey.all (· < K)
  | _ => true

theorem FOp.fits_ok {c : Cfg} {K : Nat} {op : FOp} (h : FOp.fits c K op = true) : FOp.Fits c K op := by
  unfold FOp.fits at h
  rw [Bool.and_eq_true] at h
  have hall : ∀ {q : Range}, (q.minKey.all (· < K) && q.maxKey.all (· < K)) = true →
      (∀ k, q.minKey = some k → k < K) ∧ ∀ k, q.maxKey = some k → k < K := by
    intro q h
    rw [Bool.and_eq_true] at h
    refine ⟨fun k hk => ?_, fun k hk => ?_⟩
    · have := h.1; rw [hk] at this; simpa using this
    · have := h.2; rw [hk] at this; simpa using this
  refine ⟨?_, ?_, ?_⟩
  · intro k v ho
    rw [ho] at h
    have := h.1
    simp only [Bool.and_eq_true, decide_eq_true_eq] at this
    exact this
  · intro k ho
    have := h.2
    rw [ho] at this
    simpa using this
  · rintro q (ho | ⟨i, ho⟩)
    · have := h.2
      rw [ho] at this
      exact hall this
    · have := h.2
      rw [ho] at this
      exact hall this

/-- The demo table on a device that refuses requests 2, 5 and 6; erased pages stay readable. -/
def wild : Cfg := { demo with ioOk := fun n => n != 2 && n != 5 && n != 6 }

/-- Keys out of order, failing reads, an iterator kept open. -/
def wildOps : List FOp :=
  ((List.range 9).map fun i => .plain (.op (.put (10 * (i + 1)) (dat (UInt8.ofNat i))))) ++
  [.plain (.op (.put 5 (dat 1))), .plain (.opn 0 ⟨some 15, some 85, none, none⟩), .nxt 0 [0] [], .plain (.nxt 0),
   .plain (.op .flush), .plain (.op .flush), .get 20 [1], .plain (.op (.get 20)), .plain (.nxt 0), .plain (.nxt 0),
   .plain (.op (.scan allRows))]

/-- The hypotheses of the theorems hold for the state after `wildOps`, a power failure after two storage operations and
a second run of `wildOps`. -/
example : wild.Layout ∧ 0 < wild.maxRec ∧ wild.maxRec ≤ 65535 ∧ 1000 ≤ 256 ^ wild.keySize ∧ CmpOk wild.cmpKey 1000 ∧
    (∀ op ∈ wildOps, FOp.Fits wild 1000 op) ∧ ∃ d its b S, Past wild 1000 d its b S ∧ S.length = 14 := by
  have hf : ∀ op ∈ wildOps, FOp.Fits wild 1000 op := by
    have : wildOps.all (FOp.fits wild 1000) = true := by decide +kernel
    exact fun op h => FOp.fits_ok (List.all_eq_true.mp this op h)
  refine ⟨⟨demo_layout.1, demo_layout.2, fun _ _ h => h⟩, by decide, by decide, by decide, demo_cmp _, hf, ?_⟩
  obtain ⟨d, its, b, S, h1, h2⟩ := Past.twice (K := 1000) (c := wild) (ops := wildOps) (x := noIdx) 2 (rb := fun _ => 0)
    (sm := fun _ => (0, 0)) hf (p := fun z => decide (z.2.2.2.length = 14)) (by decide +kernel)
  exact ⟨d, its, b, S, h1, of_decide_eq_true h2⟩

/-- What the client sees in the first of these runs: the records of the refused pages are missing, the iterator and the
lookups deliver what was inserted and nothing else. -/
example : answers (fhistory (stepX wild) wild demo0 noIdx (fun _ => none) wildOps) = [0, 20, 1, 1, 30, 40] := by
  decide +kernel

/-! ### With variable data -/

/-- The demo table with variable data on a device that refuses request 3. -/
def wildV : Cfg := { demoV with ioOk := fun n => n != 3 }

/-- Insert some records with variable data. -/
def vputs (c : Cfg) : Data → Idx → Var → List Rec → List (Nat × UInt8) → Option (Data × Idx × Var × List Rec)
  | d, x, v, S, [] => some (d, x, v, S)
  | d, x, v, S, (k, a) :: t => match putVar c d x v k (dat a) (some (blob 10 a)) with
    | .ok (d', x', v', r) => vputs c d' x' v' (S ++ Spec.gained (.put k (dat a)) (.code r)) t
    | _ => none

theorem dat_length (a : UInt8) : (dat a).length = 4 := rfl

theorem Past.vputs {c : Cfg} {K : Nat} (hd : c.dataSize = 4) {its : Nat → Option Iter} {b : Nat → Option Range} : ∀ (l : List (Nat × UInt8))
    (d : Data) (x : Idx) (v : Var) (S : List Rec), Past c K d its b S → l.all (fun q => decide (q.1 < K)) = true →
    ∀ y, vputs c d x v S l = some y → Past c K y.1 its b y.2.2.2 := by
  intro l
  induction l with
  | nil => intro d x v S h _ y e; cases e; exact h
  | cons q l ih =>
    obtain ⟨k, a⟩ := q
    intro d x v S h hl y e
    unfold EDB.vputs at e
    rw [List.all_cons, Bool.and_eq_true] at hl
    split at e
    · rename_i e1
      exact ih _ _ _ _ (h.putVar (of_decide_eq_true hl.1) (by rw [hd, dat_length]) e1) hl.2 y e
    · cases e

/-- Twelve records with variable data; the write of one page is refused. -/
def wildRecs : List (Nat × UInt8) := (List.range 12).map fun i => (10 * (i + 1), UInt8.ofNat i)

/-- An iterator is created. -/
theorem Past.opn {c : Cfg} {K : Nat} {d : Data} {its : Nat → Option Iter} {b : Nat → Option Range} {S : List Rec} (h : Past c K d its b S)
    {it : Iter} (e : initIter c d none none none none = .ok it) :
    Past c K d (Spec.setAt its 0 (some it)) (Spec.setAt b 0 (some allRows)) S := by
  have e1 : fstep (stepX c) c d noIdx its (.plain (.opn 0 allRows)) = .ok (d, noIdx, Spec.setAt its 0 (some it), .opened) := by
    simp only [fstep, mstep, allRows, e]
    rfl
  have hf : FOp.Fits c K (.plain (.opn 0 allRows)) := FOp.fits_ok rfl
  have := h.op hf e1
  simpa only [Spec.gainedF, Spec.boundsAfter, List.append_nil] using this

/-- `wildRecs`, a power failure after three storage operations, and `wildRecs` once more. -/
def wildV2 : Option (Data × Idx × Var × List Rec) :=
  (vputs wildV demoV0 noIdx demoVar0 [] wildRecs).bind fun y =>
    vputs wildV (reopenV wildV (cutDev wildV y.1.dev 3) y.2.2.1.dev (fun _ => 0) (fun _ => (0, 0)) (fun _ => 0) false).1 noIdx
      demoVar0 y.2.2.2 wildRecs

theorem wildV2_past {y : Data × Idx × Var × List Rec} (h : wildV2 = some y) :
    Past wildV 1000 y.1 (fun _ => none) (fun _ => none) y.2.2.2 := by
  have hl : wildRecs.all (fun q => decide (q.1 < 1000)) = true := by decide +kernel
  obtain ⟨u, h1, h2⟩ := Option.bind_eq_some_iff.mp h
  exact Past.vputs rfl _ _ _ _ _ ((Past.vputs rfl _ _ _ _ _ (Past.new _ _) hl _ h1).cutVar 3 _ _ _ _ _) hl _ h2

/-- The hypotheses hold for this table; a lookup and an iterator deliver something there although page 2 cannot be read. -/
example : wildV.Layout ∧ 0 < wildV.maxRec ∧ wildV.maxRec ≤ 65535 ∧ 1000 ≤ 256 ^ wildV.keySize ∧ CmpOk wildV.cmpKey 1000 ∧
    wildV.useVdata = true ∧ ∃ d x v its b S it, Past wildV 1000 d its b S ∧ its 0 = some it ∧ S.length = 18 ∧
      (getVar wildV (d.without [2]) v 100).check (fun z => decide (z.2.2.1 = 0) && z.2.2.2.1.isSome) = true ∧
      (nextVar wildV (d.without [2]) x v it).check (fun z => z.2.2.2.2.isSome) = true := by
  refine ⟨⟨by decide, by decide, fun _ _ h => h⟩, by decide, by decide, by decide, demo_cmp _, rfl, ?_⟩
  have h : (wildV2.any fun z => decide (z.2.2.2.length = 18) &&
      ((getVar wildV (z.1.without [2]) z.2.2.1 100).check (fun z => decide (z.2.2.1 = 0) && z.2.2.2.1.isSome) &&
      (initIter wildV z.1 none none none none).check fun it => (nextVar wildV (z.1.without [2]) z.2.1 z.2.2.1 it).check
        fun z => z.2.2.2.2.isSome)) = true := by
    decide +kernel
  cases hz : wildV2 with
  | none => rw [hz] at h; cases h
  | some z =>
    rw [hz, Option.any_some, Bool.and_eq_true, Bool.and_eq_true] at h
    obtain ⟨h1, h2, h3⟩ := h
    obtain ⟨it, e, h3⟩ := Res.check_ok h3
    exact ⟨_, _, _, _, _, _, it, (wildV2_past hz).opn e, rfl, of_decide_eq_true h1, h2, h3⟩

end EDB
