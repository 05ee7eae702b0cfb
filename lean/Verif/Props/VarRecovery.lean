import Verif.Proofs.DemoVar
import Verif.Proofs.VarReopen

/-!
# C49: tables with variable data survive power failures
-/

namespace EDB

open Spec (Log VLog VOp VOut)

/-- C49 (`_partial`: see `C49_life_partial`).  A table with variable data, created empty and used by a client that plays
by the rules, with any number of power failures and reopenings behind it (`LifeV`).  Power fails during the next
operation (not a flush), after any number of the storage operations on the two files: `embedDBInit` on the files
succeeds. -/
theorem C49_reopen_partial (c : Cfg) (lo K P : Nat) (hok : c.Ok K) (hv : c.VFile) (hB : Bounds c lo K P) (h127 : c.maxRec ≤ 127)
    (hN32 : c.N < 2 ^ 32) (hE : Eraser c P) (R : Nat) (d d' : Data) (x x' : Idx) (v v' : Var) (l : VLog) (op : VOp) (o : VOut) (D V : Dev)
    (h : LifeV c lo K P R d x v l) (A : AllowedV c lo K P d v l op) (e : stepV c d x v op = .ok (d', x', v', o)) (hop : op ≠ .flush)
    (hN : CanReopen c d' D) (hf : PowerFail c d x v op D V) (hV : ¬ LonePage c V) (rb vrb : Page) (sm : Nat → Nat × Nat) (hvf : Bool) :
    ∃ d'' v'', reopenV c D V rb sm vrb hvf = (d'', v'', 0) := by
  obtain ⟨lv, g, I⟩ := h.ok hok hv hB h127 hN32 hE (by have := A.pages; omega)
  obtain ⟨g', I', h1, h2, h3⟩ := I.step hok hv hB (by omega) A (fun h => absurd h hop) e rfl
  obtain ⟨d1, v1, -, -, e1, -⟩ := I.reopen hok hv hB h127 hN32 hE I' A e hop hN h1 h2 h3 hf hV rb vrb sm hvf
  exact ⟨d1, v1, e1⟩

/-- C49 (`_partial`: see below).  After any life of such a table (`LifeV`: operations, power failures during them,
reopenings), the observations of all further operations agree with the log `l`, in which a power failure keeps exactly
the records of the data pages written, and their variable data (`cutVLog`): every `embedDBGetVar` of a record kept
returns its data and a stream of exactly the bytes stored with it, every other one returns -1.  Kept are the records on
all pages but the first `Spec.dropped` (a data file that has wrapped) and, if `R` pages were found at the last reopening,
the first `Spec.recovered R` (C18).

Missing: power failures during `embedDBFlush` (claim false, `C30_false_flush`); of power failures after the data file
has wrapped, those with `maxErr > 1` and those right after the erase of its first block (`CanReopen`; the latter: claim
false, `C18_false_first_block`); a variable data file that fills up; a variable data file of a single page naming key 0 (`LonePage`: claim
false, `C49_false_lone_page`, `C49_false_blank_page`); and the conditions of C26. -/
theorem C49_life_partial (c : Cfg) (lo K P : Nat) (hok : c.Ok K) (hv : c.VFile) (hB : Bounds c lo K P) (h127 : c.maxRec ≤ 127)
    (hN32 : c.N < 2 ^ 32) (hE : Eraser c P) (hP0 : 0 < P) (R : Nat) (d : Data) (x : Idx) (v : Var) (l : VLog) (h : LifeV c lo K P R d x v l)
    (ops : List VOp) (hP : d.next + ops.length ≤ P) (hC : ClientV c lo K ops) (hasc : ∀ r ∈ l.log.all, ∀ k ∈ Spec.offeredV ops, r.1 < k)
    (hroom : (v.next + 1) * c.vcap + varNeed c (pageCount d.wbuf) ops ≤ c.numVar * c.vcap) (hS : Along c (CacheFree c) d x v ops)
    (hidx : IdxSafe c d x v ops) :
    Spec.VRun (fun _ => True) (fun L => L.live (max (Spec.recovered c.N c.B R) (Spec.dropped c.N c.B L.pages.length)))
      (fun l k o => o = Spec.vAnswer (l.log.live (max (Spec.recovered c.N c.B R) (Spec.dropped c.N c.B l.log.pages.length))) l.var k) Spec.NotBuffered
      c.maxRec l (historyV c d x v ops) := by
  obtain ⟨lv, g, I⟩ := h.ok hok hv hB h127 hN32 hE hP0
  have hop := I.tab.opn
  unfold Open at hop
  refine historyVX_ok (E := False) hok I.spl recovered_dvd hv hB (by omega)
    (G := fun d x v ops => Along c (CacheFree c) d x v ops ∧ IdxSafe c d x v ops) ?_ ?_ ?_ ?_ ?_ ?_ ops d x v
    l g I.tab trivial hP hC (fun k hk => I.lift k (hC.low k hk) fun r hr => hasc r hr k hk) hasc (Or.inr (by omega)) ⟨hS, hidx⟩
  · intro l _; rfl
  · intro l k o _ h
    exact h (fun h => h)
  · intro d v l g x op ops hg T _ hc
    exact hg.1.1 hc
  · intro _ _ _ _ _ _ h; exact h.elim
  · intro d x v ops hg; exact hg.2.1 rfl
  · intro d x v op ops d' x' v' o hg e
    exact ⟨hg.1.2 _ _ _ _ e, hg.2.2 _ _ _ _ e⟩

/-! ### The hypotheses are satisfiable -/

/-- Check of `CacheFree` on a concrete state. -/
def cacheFreeB (c : Cfg) (d : Data) (_ : Var) : VOp → Bool
  | .put _ _ _ => decide (pageCount d.wbuf < c.maxRec) || d.buffered != some (d.next % c.N)
  | .flush => d.buffered != some (d.next % c.N)
  | _ => true

theorem cacheFreeB_ok {c : Cfg} (d : Data) (v : Var) (op : VOp) (h : cacheFreeB c d v op = true) : CacheFree c d v op := by
  intro hc
  cases op with
  | put k a b =>
    simp only [completesV] at hc
    simp only [cacheFreeB, Bool.or_eq_true, decide_eq_true_eq, bne_iff_ne, ne_eq] at h
    exact h.resolve_left (by omega)
  | flush => simpa [cacheFreeB] using h
  | _ => exact absurd hc (by simp [completesV])

/-- Check of `AllowedV` on a concrete state. -/
def allowedB (c : Cfg) (lo K P : Nat) (d : Data) (v : Var) (l : VLog) (op : VOp) : Bool :=
  clientVB c lo K [op] && (l.log.all.all fun r => (Spec.offeredV [op]).all fun k => decide (r.1 < k)) && decide (d.next + 1 < P) &&
    cacheFreeB c d v op && cleanB c d v op && decide ((v.next + 2) * c.vcap + varNeed c (pageCount d.wbuf) [op] ≤ c.numVar * c.vcap)

theorem allowedB_ok {c : Cfg} {lo K P : Nat} {d : Data} {v : Var} {l : VLog} {op : VOp} (h : allowedB c lo K P d v l op = true) :
    AllowedV c lo K P d v l op := by
  simp only [allowedB, Bool.and_eq_true, decide_eq_true_eq, List.all_eq_true] at h
  obtain ⟨⟨⟨⟨⟨h1, h2⟩, h3⟩, h4⟩, h5⟩, h6⟩ := h
  exact ⟨clientVB_ok h1, h2, h3, cacheFreeB_ok _ _ _ h4, cleanB_ok _ _ _ h5, h6⟩

/-- Check that the entry `embedDBFlush` adds to the index page fits. -/
def roomB (c : Cfg) (x : Idx) : VOp → Bool
  | .flush => !c.useIndex || decide (pageCount x.wbuf < c.maxIdx)
  | _ => true

theorem roomB_ok {c : Cfg} {x : Idx} {op : VOp} (h : roomB c x op = true) : op = .flush → IdxRoom c x := by
  rintro rfl hi
  simpa [roomB, hi] using h

/-- Check of a concrete part of a life. -/
def lifeB (c : Cfg) (lo K P : Nat) (Q : Data → Idx → Var → VLog → Bool) : Data → Idx → Var → VLog → List VOp → Bool
  | d, x, v, l, [] => Q d x v l
  | d, x, v, l, op :: ops => (allowedB c lo K P d v l op && roomB c x op) && (stepV c d x v op).check fun s =>
      lifeB c lo K P Q s.1 s.2.1 s.2.2.1 (Spec.vlogAfter c.maxRec l [(op, some s.2.2.2)]) ops

theorem lifeB_ok {c : Cfg} {lo K P R : Nat} {Q : Data → Idx → Var → VLog → Bool} : ∀ (ops : List VOp) (d : Data) (x : Idx) (v : Var) (l : VLog),
    LifeV c lo K P R d x v l → lifeB c lo K P Q d x v l ops = true → ∃ d' x' v' l', LifeV c lo K P R d' x' v' l' ∧ Q d' x' v' l' = true := by
  intro ops
  induction ops with
  | nil => intro d x v l h hQ; exact ⟨d, x, v, l, h, hQ⟩
  | cons op ops ih =>
    intro d x v l h hb
    rw [lifeB, Bool.and_eq_true, Bool.and_eq_true] at hb
    obtain ⟨⟨d', x', v', o⟩, e, hb'⟩ := Res.check_ok hb.2
    exact ih _ _ _ _ (h.op (allowedB_ok hb.1.1) (roomB_ok hb.1.2) e) hb'

/-- Operations before the power failure. -/
def demoROps : List VOp :=
  [.put 1 (dat 1) (some (blob 40 10)), .put 2 (dat 2) none, .getVar 1, .put 3 (dat 3) (some (blob 30 20)), .put 4 (dat 4) (some (blob 5 70))]

/-- The operation during which power fails; it completes data page 1. -/
def demoROp : VOp := .put 5 (dat 5) (some (blob 50 30))

/-- Operations after reopening. -/
def demoRNext : List VOp :=
  [.getVar 1, .getVar 4, .getVar 5, .put 5 (dat 6) (some (blob 3 1)), .put 6 (dat 6) none, .put 7 (dat 7) none, .getVar 5, .getVar 6]

/-- Power fails after data page 1 has been written (before the variable data of record 5): the tables' hypotheses hold,
before and after, and the records 1 to 4 are in the log. -/
def demoRCheck (d : Data) (x : Idx) (v : Var) (l : VLog) : Bool :=
  allowedB demoV 0 1000 100 d v l demoROp && (stepV demoV d x v demoROp).check fun s =>
    decide (s.1.next ≤ 8) && decide ((Spec.writes (cutFrom demoV d.dev s.1.dev 1).log).length = 2) &&
    ((preVar demoV d v).dev.file 1).isSome &&
    (let l' := cutVLog (Spec.vlogAfter demoV.maxRec l [(demoROp, some s.2.2.2)]) (cutFrom demoV d.dev s.1.dev 1)
    match reopenV demoV (cutFrom demoV d.dev s.1.dev 1) (preVar demoV d v).dev (fun _ => 7) (fun _ => (0, 0)) (fun _ => 9) true with
    | (d', v', r) => decide (r = 0) && decide (l'.log.all = [(1, dat 1), (2, dat 2), (3, dat 3), (4, dat 4)] ∧ l'.var 4 = some (blob 5 70)) &&
        decide (d'.next + demoRNext.length ≤ 100) && (l'.log.all.all fun r => (Spec.offeredV demoRNext).all fun k => decide (r.1 < k)) &&
        decide ((v'.next + 1) * demoV.vcap + varNeed demoV (pageCount d'.wbuf) demoRNext ≤ demoV.numVar * demoV.vcap) &&
        alongB demoV (cacheFreeB demoV) d' x v' demoRNext)

theorem demoR_check : lifeB demoV 0 1000 100 demoRCheck demoV0 noIdx demoVar0 VLog.empty demoROps = true := by
  decide +kernel

example : demoV.Ok 1000 ∧ demoV.VOk ∧ Bounds demoV 0 1000 100 ∧ demoV.maxRec ≤ 127 ∧ demoV.N < 2 ^ 32 ∧ Eraser demoV 100 ∧
    ∃ d d' x x' v v' l o D V, LifeV demoV 0 1000 100 0 d x v l ∧ AllowedV demoV 0 1000 100 d v l demoROp ∧
      stepV demoV d x v demoROp = .ok (d', x', v', o) ∧ demoROp ≠ .flush ∧ CanReopen demoV d' D ∧ PowerFail demoV d x v demoROp D V ∧ ¬ LonePage demoV V ∧
      ∃ d'' v'' l'', LifeV demoV 0 1000 100 2 d'' x v'' l'' ∧ l''.log.all = [(1, dat 1), (2, dat 2), (3, dat 3), (4, dat 4)] ∧
        l''.var 4 = some (blob 5 70) ∧ d''.next + demoRNext.length ≤ 100 ∧ ClientV demoV 0 1000 demoRNext ∧
        (∀ r ∈ l''.log.all, ∀ k ∈ Spec.offeredV demoRNext, r.1 < k) ∧
        (v''.next + 1) * demoV.vcap + varNeed demoV (pageCount d''.wbuf) demoRNext ≤ demoV.numVar * demoV.vcap ∧
        Along demoV (CacheFree demoV) d'' x v'' demoRNext := by
  refine ⟨demoV_ok _, demoV_vok, demoV_bounds (by decide) (by decide), by decide, by decide, fun q => ⟨q, rfl, Or.inl rfl⟩, ?_⟩
  obtain ⟨d, x, v, l, h, hQ⟩ := lifeB_ok demoROps demoV0 noIdx demoVar0 VLog.empty (LifeV.new _ _ _ _ _) demoR_check
  rw [demoRCheck, Bool.and_eq_true] at hQ
  obtain ⟨⟨d', x', v', o⟩, e, hQ'⟩ := Res.check_ok hQ.2
  simp only [Bool.and_eq_true, decide_eq_true_eq] at hQ'
  obtain ⟨⟨⟨q1, q2⟩, q3⟩, ⟨⟨⟨⟨⟨q4, q5⟩, q6⟩, q7⟩, q8⟩, q9⟩⟩ := hQ'
  have hV : ¬ LonePage demoV (preVar demoV d v).dev := by
    rintro ⟨h1, -⟩
    rw [h1] at q3
    cases q3
  have hL := LifeV.cut (x'' := x) h (allowedB_ok hQ.1) e (by decide) (Or.inl q1) (PowerFail.putData 5 _ _ 1 e) hV (fun _ => 7) (fun _ => 9) (fun _ => (0, 0)) true
      (Prod.ext rfl (Prod.ext rfl q4))
  rw [q2] at hL
  refine ⟨d, d', x, x', v, v', l, o, _, _, h, allowedB_ok hQ.1, e, by decide, Or.inl q1, PowerFail.putData 5 _ _ 1 e, hV, _, _, _, hL, q5.1, q5.2, q6, clientVB_ok (by decide +kernel), ?_, q8, alongB_ok cacheFreeB_ok _ _ _ _ q9⟩
  intro r hr k hk
  rw [List.all_eq_true] at q7
  have := q7 r hr
  rw [List.all_eq_true] at this
  exact of_decide_eq_true (this k hk)

/-! A data file that has wrapped: 22 inserts (10 data pages in a file of 8), then power fails between the erase of pages 2
and 3 and the write of data page 10. -/

/-- The demo table with a file of 32 variable pages. -/
def demoU : Cfg := { demoV with numVar := 32 }

theorem demoU_ok (K : Nat) : demoU.Ok K := { demoV_ok K with layout := ⟨by decide, by decide, fun _ _ h => h⟩ }

theorem demoU_vok : demoU.VOk where
  vdata := rfl
  page := by decide
  B0 := by decide
  dvd := by decide
  two := by decide
  mem := by decide
  key8 := by decide
  idx := rfl
  io _ := rfl
  cap := fun h => by cases h

theorem demoU_bounds {lo K P : Nat} (hK : K ≤ 2 ^ 32) (hP : P < 2 ^ 30) : Bounds demoU lo K P :=
  ⟨(demoV_bounds (lo := lo) hK hP).prod, (demoV_bounds (lo := lo) hK hP).pages, (demoV_bounds (lo := lo) hK hP).key⟩

/-- The operations before that power failure: every sixth record has variable data. -/
def demoXOps : List VOp := (List.range 22).map fun i =>
  .put (i + 1) (dat (UInt8.ofNat (i + 1))) (if i % 6 = 2 then some (blob (3 + i) (UInt8.ofNat i)) else none)

/-- The operation during which power fails. -/
def demoXOp : VOp := .put 23 (dat 23) (some (blob 3 1))

/-- Operations after reopening: record 3 is on a page given up, record 9 on one kept, record 21 was not yet on a page. -/
def demoXNext : List VOp :=
  [.getVar 3, .getVar 9, .getVar 21, .put 21 (dat 6) (some (blob 3 1)), .put 22 (dat 6) none, .getVar 15, .put 23 (dat 7) none, .getVar 21]

/-- The hypotheses hold, and the pages 4 to 9 (records 9 to 20) are kept. -/
def demoXCheck (d : Data) (x : Idx) (v : Var) (l : VLog) : Bool :=
  allowedB demoU 0 1000 100 d v l demoXOp && (stepV demoU d x v demoXOp).check fun s =>
    ((cutFrom demoU d.dev s.1.dev 1).log.getLast?.any fun | .erase 2 4 => true | _ => false) &&
    decide ((Spec.writes (cutFrom demoU d.dev s.1.dev 1).log).length = 10) &&
    ((preVar demoU d v).dev.file 1).isSome &&
    (let l' := cutVLog (Spec.vlogAfter demoU.maxRec l [(demoXOp, some s.2.2.2)]) (cutFrom demoU d.dev s.1.dev 1)
    match reopenV demoU (cutFrom demoU d.dev s.1.dev 1) (preVar demoU d v).dev (fun _ => 7) (fun _ => (0, 0)) (fun _ => 9) true with
    | (d', v', r) => decide (r = 0) &&
        decide ((l'.log.live (max (Spec.recovered 8 2 10) (Spec.dropped 8 2 l'.log.pages.length))).map (·.1) = (List.range 12).map (· + 9) ∧
          l'.var 9 = some (blob 11 8)) &&
        decide (d'.next + demoXNext.length ≤ 100) && (l'.log.all.all fun r => (Spec.offeredV demoXNext).all fun k => decide (r.1 < k)) &&
        decide ((v'.next + 1) * demoU.vcap + varNeed demoU (pageCount d'.wbuf) demoXNext ≤ demoU.numVar * demoU.vcap) &&
        alongB demoU (cacheFreeB demoU) d' x v' demoXNext)

theorem demoX_check : lifeB demoU 0 1000 100 demoXCheck (Data.fresh demoU (fun _ => 0) fun _ => (0, 0)) noIdx (Var.fresh demoU (fun _ => 0) false) VLog.empty demoXOps = true := by
  decide +kernel

example : demoU.Ok 1000 ∧ demoU.VOk ∧ Bounds demoU 0 1000 100 ∧ demoU.maxRec ≤ 127 ∧ demoU.N < 2 ^ 32 ∧ Eraser demoU 100 ∧
    ∃ d d' x x' v v' l o D V, LifeV demoU 0 1000 100 0 d x v l ∧ AllowedV demoU 0 1000 100 d v l demoXOp ∧
      stepV demoU d x v demoXOp = .ok (d', x', v', o) ∧ demoXOp ≠ .flush ∧ CanReopen demoU d' D ∧ PowerFail demoU d x v demoXOp D V ∧ ¬ LonePage demoU V ∧
      D.log.getLast? = some (.erase 2 4) ∧
      ∃ d'' v'' l'', LifeV demoU 0 1000 100 10 d'' x v'' l'' ∧
        (l''.log.live (max (Spec.recovered 8 2 10) (Spec.dropped 8 2 l''.log.pages.length))).map (·.1) = (List.range 12).map (· + 9) ∧
        l''.var 9 = some (blob 11 8) ∧ d''.next + demoXNext.length ≤ 100 ∧ ClientV demoU 0 1000 demoXNext ∧
        (∀ r ∈ l''.log.all, ∀ k ∈ Spec.offeredV demoXNext, r.1 < k) ∧
        (v''.next + 1) * demoU.vcap + varNeed demoU (pageCount d''.wbuf) demoXNext ≤ demoU.numVar * demoU.vcap ∧
        Along demoU (CacheFree demoU) d'' x v'' demoXNext := by
  refine ⟨demoU_ok _, demoU_vok, demoU_bounds (by decide) (by decide), by decide, by decide, fun q => ⟨q, rfl, Or.inl rfl⟩, ?_⟩
  obtain ⟨d, x, v, l, h, hQ⟩ := lifeB_ok demoXOps (Data.fresh demoU (fun _ => 0) fun _ => (0, 0)) noIdx (Var.fresh demoU (fun _ => 0) false) VLog.empty (LifeV.new _ _ _ _ _) demoX_check
  rw [demoXCheck, Bool.and_eq_true] at hQ
  obtain ⟨⟨d', x', v', o⟩, e, hQ'⟩ := Res.check_ok hQ.2
  simp only [Bool.and_eq_true, decide_eq_true_eq] at hQ'
  obtain ⟨⟨⟨q1, q2⟩, q3⟩, ⟨⟨⟨⟨⟨q4, q5⟩, q6⟩, q7⟩, q8⟩, q9⟩⟩ := hQ'
  have hV : ¬ LonePage demoU (preVar demoU d v).dev := by
    rintro ⟨h1, -⟩
    rw [h1] at q3
    cases q3
  have hC : CanReopen demoU d' (cutFrom demoU d.dev d'.dev 1) := Or.inr ⟨by decide, Or.inr fun _ => rfl⟩
  have hL := LifeV.cut (x'' := x) h (allowedB_ok hQ.1) e (by decide) hC (PowerFail.putData 23 _ _ 1 e) hV (fun _ => 7) (fun _ => 9) (fun _ => (0, 0)) true
      (Prod.ext rfl (Prod.ext rfl q4))
  rw [q2] at hL
  refine ⟨d, d', x, x', v, v', l, o, _, _, h, allowedB_ok hQ.1, e, by decide, hC, PowerFail.putData 23 _ _ 1 e, hV, ?_, _, _, _, hL, q5.1, q5.2, q6,
    clientVB_ok (by decide +kernel), ?_, q8, alongB_ok cacheFreeB_ok _ _ _ _ q9⟩
  · rw [Option.any_eq_true] at q1
    obtain ⟨ev, h1, h2⟩ := q1
    rw [h1]
    split at h2
    · rfl
    · cases h2
  intro r hr k hk
  rw [List.all_eq_true] at q7
  have := q7 r hr
  rw [List.all_eq_true] at this
  exact of_decide_eq_true (this k hk)

end EDB
