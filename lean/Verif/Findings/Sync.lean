import Verif.Props.Sync
import Verif.Findings.Var
import Verif.Findings.VarRecovery
import Verif.Proofs.DemoRlc

/-!
# C78: what a successful `embedDBFlush` does not bring to the medium
-/

namespace EDB

/-- Run the operations, the last one being of interest: its code and what is on the medium. -/
def syncTest (c : Cfg) (ops : List SyOp) (op : SyOp) (f : Data → Var → Synced → Int → Bool) : Bool :=
  ((runSync c (Data.fresh c (fun _ => 0) (fun _ => (0, 0))) noIdx (Var.fresh c (fun _ => 0) false) sync0 ops).bind fun (d, x, v, s) =>
    stepSync c d x v s op).check fun (d, _, v, s, r) => f d v s r

theorem syncTest_ok {c : Cfg} {ops : List SyOp} {op : SyOp} {f : Data → Var → Synced → Int → Bool} (h : syncTest c ops op f = true) :
    ∃ d x v s d' x' v' s' r, runSync c (Data.fresh c (fun _ => 0) (fun _ => (0, 0))) noIdx (Var.fresh c (fun _ => 0) false) sync0 ops =
      .ok (d, x, v, s) ∧ stepSync c d x v s op = .ok (d', x', v', s', r) ∧ f d' v' s' r = true := by
  obtain ⟨⟨d', x', v', s', r⟩, e, h1⟩ := Res.check_ok h
  obtain ⟨⟨d, x, v, s⟩, e1, e2⟩ := Res.bind_eq_ok e
  exact ⟨d, x, v, s, d', x', v', s', r, e1, e2, h1⟩

/-- C78 is false: after two records with variable data, which fill a data page, and one without, `embedDBFlush` returns 0 without
flushing the variable data file.  The third insert had written the variable page (embedDB.c:1206) and left the variable write buffer
empty, and `embedDBFlushVar` returns in line 1640 before it calls `flush`.  The data pages on the medium refer to variable data that is
not there. -/
theorem C78_false_var : ∃ d x v s d' x' v' s',
    runSync demoV (Data.fresh demoV (fun _ => 0) (fun _ => (0, 0))) noIdx (Var.fresh demoV (fun _ => 0) false) sync0
      [.putVar 1 (dat 1) (some (blob 5 10)) okFl, .putVar 2 (dat 2) (some (blob 5 20)) okFl, .putVar 3 (dat 3) none okFl] = .ok (d, x, v, s) ∧
    stepSync demoV d x v s (.flush okFl) = .ok (d', x', v', s', 0) ∧ s'.var = 0 ∧ v'.dev.log.length = 1 ∧ s'.data = 2 := by
  obtain ⟨d, x, v, s, d', x', v', s', r, e1, e2, h⟩ := syncTest_ok (c := demoV)
    (ops := [.putVar 1 (dat 1) (some (blob 5 10)) okFl, .putVar 2 (dat 2) (some (blob 5 20)) okFl, .putVar 3 (dat 3) none okFl])
    (op := .flush okFl) (f := fun _ v s r => decide (r = 0 ∧ s.var = 0 ∧ v.dev.log.length = 1 ∧ s.data = 2)) (by decide +kernel)
  obtain ⟨rfl, h1⟩ := of_decide_eq_true h
  exact ⟨d, x, v, s, d', x', v', s', e1, e2, h1⟩

/-- C78 is false: the same if the variable data of the last record ends at the end of a page, which `embedDBPutVar` then writes
(embedDB.c:1257). -/
theorem C78_false_var_full : ∃ d x v s d' x' v' s',
    runSync demoV (Data.fresh demoV (fun _ => 0) (fun _ => (0, 0))) noIdx (Var.fresh demoV (fun _ => 0) false) sync0
      [.putVar 1 (dat 1) (some (blob 22 10)) okFl] = .ok (d, x, v, s) ∧
    stepSync demoV d x v s (.flush okFl) = .ok (d', x', v', s', 0) ∧ s'.var = 0 ∧ v'.dev.log.length = 1 ∧ s'.data = 1 := by
  obtain ⟨d, x, v, s, d', x', v', s', r, e1, e2, h⟩ := syncTest_ok (c := demoV)
    (ops := [.putVar 1 (dat 1) (some (blob 22 10)) okFl])
    (op := .flush okFl) (f := fun _ v s r => decide (r = 0 ∧ s.var = 0 ∧ v.dev.log.length = 1 ∧ s.data = 1)) (by decide +kernel)
  obtain ⟨rfl, h1⟩ := of_decide_eq_true h
  exact ⟨d, x, v, s, d', x', v', s', e1, e2, h1⟩

/-- C78 is false: `embedDBFlush` ignores the answer of `fileInterface->flush` (embedDB.c:1681) and returns 0 although nothing has
reached the medium. -/
theorem C78_false_ignored : ∃ d x v s d' x' v' s',
    runSync demo (Data.fresh demo (fun _ => 0) (fun _ => (0, 0))) noIdx (Var.fresh demo (fun _ => 0) false) sync0
      [.put 1 (dat 1)] = .ok (d, x, v, s) ∧
    stepSync demo d x v s (.flush fun _ => false) = .ok (d', x', v', s', 0) ∧ s'.data = 0 ∧ d'.dev.log.length = 1 := by
  obtain ⟨d, x, v, s, d', x', v', s', r, e1, e2, h⟩ := syncTest_ok (c := demo) (ops := [.put 1 (dat 1)])
    (op := .flush fun _ => false) (f := fun d _ s r => decide (r = 0 ∧ s.data = 0 ∧ d.dev.log.length = 1)) (by decide +kernel)
  obtain ⟨rfl, h1⟩ := of_decide_eq_true h
  exact ⟨d, x, v, s, d', x', v', s', e1, e2, h1⟩

/-- With record-level consistency an insert that has returned 0 is not on the medium either: `writeTemporaryPage` does not call `flush`.
C20, which says that such records survive, is about devices that keep every write. -/
theorem C78_false_rlc : ∃ d x v s d' x' v' s',
    runSync demoR (Data.fresh demoR (fun _ => 0) (fun _ => (0, 0))) noIdx (Var.fresh demoR (fun _ => 0) false) sync0 [] = .ok (d, x, v, s) ∧
    stepSync demoR d x v s (.put 1 (dat 1)) = .ok (d', x', v', s', 0) ∧ s'.data = 0 ∧ 1 ≤ d'.dev.log.length := by
  obtain ⟨d, x, v, s, d', x', v', s', r, e1, e2, h⟩ := syncTest_ok (c := demoR) (ops := [])
    (op := .put 1 (dat 1)) (f := fun d _ s r => decide (r = 0 ∧ s.data = 0 ∧ 1 ≤ d.dev.log.length)) (by decide +kernel)
  obtain ⟨rfl, h1⟩ := of_decide_eq_true h
  exact ⟨d, x, v, s, d', x', v', s', e1, e2, h1⟩

/-- Power fails after the operations `ops1`, and only what is on the medium for certain is kept: is the table opened, and what do the
operations `ops2` observe then? -/
def afterLoss (c : Cfg) (ops1 : List SyOp) (ops2 : List Spec.VOp) : Option (Int × List (Option Spec.VOut)) :=
  match runSync c (Data.fresh c (fun _ => 0) (fun _ => (0, 0))) noIdx (Var.fresh c (fun _ => 0) false) sync0 ops1 with
  | .ok (d, x, v, s) =>
    match reopenV c (cutFrom c (Data.fresh c (fun _ => 0) (fun _ => (0, 0))).dev d.dev s.data)
      (cutFrom c (Var.fresh c (fun _ => 0) false).dev v.dev s.var) (fun _ => 0) (fun _ => (0, 0)) (fun _ => 0) false with
    | (d', v', r) => some (r, (historyV c d' x v' ops2).map Prod.snd)
  | _ => none

/-- What `C78_false_var_full` leads to: records 1 and 2 are each followed by a flush that returns 0, and power fails.  The variable data
of record 2 is lost; the table opens, record 5 is inserted and flushed, and `embedDBGetVar` of record 2 reports success and gives the
variable data of record 5. -/
theorem C78_false_wrong_data :
    afterLoss demoV [.putVar 1 (dat 1) (some (blob 5 10)) okFl, .flush okFl, .putVar 2 (dat 2) (some (blob 22 20)) okFl, .flush okFl]
      [.getVar 1, .getVar 2, putB 5 5, .flush, .getVar 2] =
    some (0, [some (.gotVar 0 (some (dat 1)) (some (blob 5 10))), some (.gotVar (-1) (some (dat 2)) none), some (.code 0), some (.code 0),
      some (.gotVar 0 (some (dat 2)) (some (blob 5 50)))]) := by
  decide +kernel

end EDB
