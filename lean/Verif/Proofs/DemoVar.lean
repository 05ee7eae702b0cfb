import Verif.Proofs.DemoOk
import Verif.Proofs.VarReach

/-! A concrete configuration with variable data for the non-vacuity examples and the counterexamples: as `demo`, with
34-byte pages (two 12-byte records per data page, 26 bytes of variable data per variable page), 8 data pages and 16
variable pages. -/

namespace EDB

open Spec (VOp VOut)

/-- See the file comment. -/
def demoV : Cfg := { demo with pageSize := 34, N := 8, numVar := 16, useVdata := true }

/-- The same with a file of 4 variable pages. -/
def demoW : Cfg := { demoV with numVar := 4 }

theorem demoV_layout : demoV.Layout := ⟨by decide, by decide, fun _ _ h => h⟩

theorem demoW_layout : demoW.Layout := ⟨by decide, by decide, fun _ _ h => h⟩

theorem demoV_ok (K : Nat) : demoV.Ok K where
  B0 := by decide
  dvd := by decide
  two := by decide
  page := by decide
  cap := by decide
  cap16 := by decide
  spl := by decide
  layout := demoV_layout
  cmp := demo_cmp K
  plain := rfl
  spline := rfl
  io _ := rfl

theorem demoW_ok (K : Nat) : demoW.Ok K where
  B0 := by decide
  dvd := by decide
  two := by decide
  page := by decide
  cap := by decide
  cap16 := by decide
  spl := by decide
  layout := demoW_layout
  cmp := demo_cmp K
  plain := rfl
  spline := rfl
  io _ := rfl

theorem demoV_vok : demoV.VOk where
  vdata := rfl
  page := by decide
  B0 := by decide
  dvd := by decide
  two := by decide
  mem := by decide
  key8 := by decide
  idx := rfl
  io _ := rfl
  cap := fun h => by cases h

theorem demoW_vok : demoW.VOk where
  vdata := rfl
  page := by decide
  B0 := by decide
  dvd := by decide
  two := by decide
  mem := by decide
  key8 := by decide
  idx := rfl
  io _ := rfl
  cap := fun h => by cases h

theorem demoV_bounds {lo K P : Nat} (hK : K ≤ 2 ^ 32) (hP : P < 2 ^ 30) : Bounds demoV lo K P where
  prod := by
    have h1 : (K - lo) * (P + demoV.maxErr) ≤ 2 ^ 32 * (P + 1) := Nat.mul_le_mul (by omega) (le_refl _)
    omega
  pages := by omega
  key := by
    have : (256 : Nat) ^ demoV.keySize = 2 ^ 32 := by decide
    omega

theorem demoW_bounds {lo K P : Nat} (hK : K ≤ 2 ^ 32) (hP : P < 2 ^ 30) : Bounds demoW lo K P where
  prod := by
    have h1 : (K - lo) * (P + demoW.maxErr) ≤ 2 ^ 32 * (P + 1) := Nat.mul_le_mul (by omega) (le_refl _)
    omega
  pages := by omega
  key := by
    have : (256 : Nat) ^ demoW.keySize = 2 ^ 32 := by decide
    omega

/-- A new data file. -/
def demoV0 : Data := Data.fresh demoV (fun _ => 0) (fun _ => (0, 0))

/-- A new variable data file. -/
def demoVar0 : Var := Var.fresh demoV (fun _ => 0) false

/-- A new data file, 4 variable pages. -/
def demoW0 : Data := Data.fresh demoW (fun _ => 0) (fun _ => (0, 0))

/-- A new variable data file of 4 pages. -/
def demoVarW0 : Var := Var.fresh demoW (fun _ => 0) false

/-- `n` bytes. -/
def blob (n : Nat) (b : UInt8) : List Byte := (List.range n).map fun i => b + UInt8.ofNat i

/-- Check of `ClientV` on concrete operations. -/
def clientVB (c : Cfg) (lo K : Nat) (ops : List VOp) : Bool :=
  decide ((Spec.offeredV ops).Pairwise (· < ·)) && ops.all fun
    | .put k v b => decide (lo ≤ k) && decide (k + 1 < K) && decide (v.length = c.dataSize) &&
        (match b with | none => true | some bs => decide (bs.length < 2 ^ 32))
    | .flush => true
    | .get k => decide (k < K)
    | .getVar k => decide (k < K)

theorem clientVB_ok {c : Cfg} {lo K : Nat} {ops : List VOp} (h : clientVB c lo K ops = true) : ClientV c lo K ops := by
  unfold clientVB at h
  rw [Bool.and_eq_true, List.all_eq_true] at h
  obtain ⟨h1, h2⟩ := h
  refine ⟨of_decide_eq_true h1, ?_, ?_, ?_⟩
  · intro k v b hm
    have := h2 _ hm
    simp only [Bool.and_eq_true, decide_eq_true_eq] at this
    obtain ⟨⟨⟨a1, a2⟩, a3⟩, a4⟩ := this
    refine ⟨a1, a2, a3, ?_⟩
    rintro bs rfl
    exact of_decide_eq_true a4
  · intro k hm
    have := h2 _ hm
    exact of_decide_eq_true this
  · intro k hm
    have := h2 _ hm
    exact of_decide_eq_true this

/-- Check of `Along` on a concrete run. -/
def alongB (c : Cfg) (Q : Data → Var → VOp → Bool) : Data → Idx → Var → List VOp → Bool
  | _, _, _, [] => true
  | d, x, v, op :: ops => Q d v op && match stepV c d x v op with
    | .ok (d', x', v', _) => alongB c Q d' x' v' ops
    | _ => true

theorem alongB_ok {c : Cfg} {Q : Data → Var → VOp → Bool} {Q' : Data → Var → VOp → Prop} (hQ : ∀ d v op, Q d v op = true → Q' d v op) :
    ∀ (ops : List VOp) (d : Data) (x : Idx) (v : Var), alongB c Q d x v ops = true → Along c Q' d x v ops := by
  intro ops
  induction ops with
  | nil => intro d x v _; exact trivial
  | cons op ops ih =>
    intro d x v h
    unfold alongB at h
    rw [Bool.and_eq_true] at h
    refine ⟨hQ _ _ _ h.1, ?_⟩
    intro d' x' v' o e
    have := h.2
    rw [e] at this
    exact ih _ _ _ this

/-- Sufficient for `CleanRead`. -/
def cleanB (c : Cfg) (d : Data) (_ : Var) : VOp → Bool
  | .getVar k => d.buffered.isNone || (List.range (pageCount d.wbuf)).all fun i => slotKey c d.wbuf i ≠ k
  | _ => true

theorem cleanB_ok {c : Cfg} (d : Data) (v : Var) (op : VOp) (h : cleanB c d v op = true) : CleanRead c d v op := by
  cases op with
  | getVar k =>
    unfold cleanB at h
    rw [Bool.or_eq_true] at h
    rintro ⟨i, h1, h2⟩
    rcases h with h | h
    · exact Option.isNone_iff_eq_none.mp h
    · rw [List.all_eq_true] at h
      have := h i (List.mem_range.mpr h1)
      simp [h2] at this
  | _ => exact trivial

end EDB
