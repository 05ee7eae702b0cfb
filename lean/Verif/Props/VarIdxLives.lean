import Verif.Props.VarIndex
import Verif.Props.VarUse
import Verif.Props.VarCrash

/-!
# C30, C49, C69, C70: tables with variable data and an index file

The theorems about power failures speak of tables with or without an index file (`Cfg.VFile`); here their hypotheses are checked
for a table with one.  What is found of the index file after a power failure may be anything (`x''`): it is not read by the
operations of these clients.
-/

namespace EDB

open Spec (Log VLog VOp VOut Rec)

/-- As `demoVI`, with 4 variable pages. -/
def demoWI : Cfg := { demoVI with N := 8, numVar := 4 }

theorem demoWI_ok (K : Nat) : demoWI.Ok K where
  B0 := by decide
  dvd := by decide
  two := by decide
  page := by decide
  cap := by decide
  cap16 := by decide
  spl := by decide
  layout := ⟨by decide, by decide, fun _ _ _ => rfl⟩
  cmp := demo_cmp K
  plain := rfl
  spline := rfl
  io _ := rfl

theorem demoWI_vfile : demoWI.VFile where
  vdata := rfl
  page := by decide
  B0 := by decide
  dvd := by decide
  two := by decide
  mem := by decide
  key8 := by decide
  io _ := rfl
  cap _ := by decide

theorem demoWI_bounds {lo K P : Nat} (hK : K ≤ 2 ^ 32) (hP : P < 2 ^ 30) : Bounds demoWI lo K P :=
  have h := demoV_bounds (lo := lo) hK hP
  ⟨h.prod, h.pages, h.key⟩

/-- The index found when the table is opened again: an empty one. -/
def demoWIX : Idx := Idx.fresh demoWI (fun _ => 3)

/-- Six inserts and a flush; the variable data file wraps. -/
def demoWIOps : List VOp := demoWPuts ++ [.put 6 (dat 5) (some (blob 20 50)), .flush]

/-- Operations after the table has been opened again; the variable data file wraps again. -/
def demoWINext : List VOp := [.put 7 (dat 7) (some (blob 20 60)), .put 8 (dat 8) (some (blob 20 70)), .put 9 (dat 9) none]

/-- `demoWIOps`, the power failure, `demoWINext`. -/
def demoWILife (W : Nat → (Nat → Nat) → Data → Idx → Var → VLog → Bool) (Q : Nat) (first : Nat → Nat) (d : Data) (x : Idx) (v : Var) (l : VLog) : Bool :=
  allowedWB demoWI 1 1000 100 Q d v (.get 1) && decide ((Spec.writes d.dev.log).length ≤ demoWI.N ∧ (Spec.writes v.dev.log).length = 6 ∧ x.next = 1) &&
    (match reopenV demoWI d.dev v.dev (fun _ => 7) (fun _ => (0, 0)) (fun _ => 9) false with
    | (d', v', r) => decide (r = 0) && decide ((Spec.writes d.dev.log).length = 3 ∧ v'.next = 6) && lifeWB demoWI 1 1000 100 W (Spec.nextKey Q (.get 1)) first d' demoWIX v'
      ⟨⟨(l.log.pages ++ [l.log.buf]).take (Spec.writes d.dev.log).length, []⟩, l.var⟩ demoWINext)

theorem demoWILife_ok {W : Nat → (Nat → Nat) → Data → Idx → Var → VLog → Bool}
    (h : lifeWB demoWI 1 1000 100 (demoWILife W) 1 (fun _ => 0) (Data.fresh demoWI (fun _ => 0) (fun _ => (0, 0))) (Idx.fresh demoWI (fun _ => 0))
      (Var.fresh demoWI (fun _ => 0) false) VLog.empty demoWIOps = true) :
    ∃ Q first d x v l, LifeW demoWI 1 1000 100 3 6 Q first d x v l ∧ W Q first d x v l = true := by
  obtain ⟨Q, first, d, x, v, l, hL, hW⟩ := lifeWB_ok _ _ _ _ _ _ _ (LifeW.new _ _ _ _ _) h
  simp only [demoWILife, Bool.and_eq_true, decide_eq_true_eq] at hW
  obtain ⟨⟨h1, h2, h3, -⟩, ⟨h4, h5, h5'⟩, h6⟩ := hW
  have hC := LifeW.cut (x'' := demoWIX) hL (allowedWB_ok h1) (by decide) (PowerFail.get 1) (Or.inl h2) (by omega) (by omega) (fun _ => 7) (fun _ => 9)
    (fun _ => (0, 0)) false (Prod.ext rfl (Prod.ext rfl h4))
  rw [h5, h5'] at hC
  rw [h5] at h6
  exact lifeWB_ok _ _ _ _ _ _ _ hC h6

/-- C70, C27, C09: the life at its end (the index holds the bitmap of the page written since the table was opened). -/
example : demoWI.Ok 1000 ∧ demoWI.VFile ∧ demoWI.useIndex = true ∧ demoWI.eraseFx = id ∧ Bounds demoWI 1 1000 100 ∧ demoWI.maxRec ≤ 127 ∧
    ∃ Q first d x v l, LifeW demoWI 1 1000 100 3 6 Q first d x v l ∧ AllowedW demoWI 1 1000 100 Q d v (.put 10 (dat 8) (some (blob 60 80))) ∧
    ((historyV demoWI d x v [.getVar 6, .getVar 7, .getVar 3]).map Prod.snd =
      [some (.gotVar 0 (some (dat 5)) (some (blob 20 50))), some (.gotVar 0 (some (dat 7)) (some (blob 20 60))), some (.gotVar 1 (some (dat 2)) none)] ∧
    (first 6, first 7, first 3, v.next, pageCount x.wbuf) = (5, 6, 2, 8, 1) ∧ Q = 10) := by
  refine ⟨demoWI_ok _, demoWI_vfile, rfl, rfl, demoWI_bounds (by decide) (by decide), by decide, ?_⟩
  obtain ⟨Q, first, d, x, v, l, h, hW⟩ := demoWILife_ok (W := fun Q first d x v _ => allowedWB demoWI 1 1000 100 Q d v (.put 10 (dat 8) (some (blob 60 80))) && decide
    ((historyV demoWI d x v [.getVar 6, .getVar 7, .getVar 3]).map Prod.snd =
      [some (.gotVar 0 (some (dat 5)) (some (blob 20 50))), some (.gotVar 0 (some (dat 7)) (some (blob 20 60))), some (.gotVar 1 (some (dat 2)) none)] ∧
    (first 6, first 7, first 3, v.next, pageCount x.wbuf) = (5, 6, 2, 8, 1) ∧ Q = 10)) (by decide +kernel)
  rw [Bool.and_eq_true] at hW
  exact ⟨Q, first, d, x, v, l, h, allowedWB_ok hW.1, of_decide_eq_true hW.2⟩

end EDB
