import Verif.Props.Cost

/-!
# C59 needs room for the spline points
-/

namespace EDB

open Spec (Op)

/-- A file of 64 pages and room for four spline points. -/
def narrow : Cfg := { demo with N := 64 }

/-- Keys 1, 2, 4, 8, …, 2 ^ 31: sixteen pages. -/
def powPuts : List Op := (List.range 32).map fun i => .put (2 ^ i) (dat (UInt8.ofNat i))

/-- C59 fails when the ring of spline points is full: the oldest points are given up although their pages are retained, and
a lookup of an old key searches page by page.  With error bound 1 (three pages) the lookup of key 1 reads six pages of a
table that never wrapped. -/
theorem C59_false_spline_full : ∃ d x d',
    runOps narrow (Data.fresh narrow (fun _ => 0) (fun _ => (0, 0))) noIdx (powPuts ++ [.flush]) = .ok (d, x) ∧
    d.min = 0 ∧ d.next = 16 ∧ get narrow d 1 = .ok (d', 0, some (dat 0)) ∧ d'.numReads = d.numReads + 6 ∧ narrow.maxErr = 1 := by
  have h : ((runOps narrow (Data.fresh narrow (fun _ => 0) (fun _ => (0, 0))) noIdx (powPuts ++ [.flush])).check fun (d, _) =>
      decide (d.min = 0 ∧ d.next = 16) && (get narrow d 1).check fun (d', r, o) =>
        decide (r = 0 ∧ o = some (dat 0) ∧ d'.numReads = d.numReads + 6)) = true := by decide +kernel
  obtain ⟨⟨d, x⟩, e1, h1⟩ := Res.check_ok h
  simp only [Bool.and_eq_true, decide_eq_true_eq] at h1
  obtain ⟨⟨h2, h3⟩, h4⟩ := h1
  obtain ⟨⟨d', r, o⟩, e2, h5⟩ := Res.check_ok h4
  simp only [decide_eq_true_eq] at h5
  obtain ⟨rfl, rfl, h6⟩ := h5
  exact ⟨d, x, d', e1, h2, h3, e2, h6, rfl⟩

end EDB
