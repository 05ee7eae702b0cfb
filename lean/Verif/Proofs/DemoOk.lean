import Verif.Proofs.Demo
import Verif.Proofs.Reach

/-! The configuration `demo` meets the assumptions of the table theorems. -/

namespace EDB

open Spec (Op Range)

theorem demo_ok (K : Nat) : demo.Ok K where
  B0 := by decide
  dvd := by decide
  two := by decide
  page := by decide
  cap := by decide
  cap16 := by decide
  spl := by decide
  layout := demo_layout
  cmp := demo_cmp K
  plain := rfl
  spline := rfl
  io _ := rfl

theorem demo_bounds {lo K P : Nat} (hK : K ≤ 2 ^ 32) (hP : P < 2 ^ 30) : Bounds demo lo K P where
  prod := by
    have h1 : (K - lo) * (P + demo.maxErr) ≤ 2 ^ 32 * (P + 1) := Nat.mul_le_mul (by omega) (le_refl _)
    omega
  pages := by omega
  key := by
    have : (256 : Nat) ^ demo.keySize = 2 ^ 32 := by decide
    omega

/-- The function returned and its result passes the test `f`. -/
def Res.check {α : Type} (r : Res α) (f : α → Bool) : Bool :=
  match r with
  | .ok a => f a
  | _ => false

theorem Res.check_ok {α : Type} {r : Res α} {f : α → Bool} (h : r.check f = true) : ∃ a, r = .ok a ∧ f a = true := by
  cases r with
  | ok a => exact ⟨a, rfl, h⟩
  | ub => simp [Res.check] at h
  | fuel => simp [Res.check] at h

/-- An index part that is never used. -/
def noIdx : Idx where
  dev := { file := fun _ => none, log := [], reqs := 0 }
  wbuf := fun _ => 0
  rbuf := fun _ => 0
  buffered := none
  next := 0
  min := 0
  avail := 0

/-- A new demo table. -/
def demo0 : Data := Data.fresh demo (fun _ => 0) (fun _ => (0, 0))

/-- Bounds of an unrestricted scan. -/
def allRows : Range := ⟨none, none, none, none⟩

/-- Four-byte data. -/
def dat (n : UInt8) : List Byte := [n, 0, 0, 0]

end EDB
