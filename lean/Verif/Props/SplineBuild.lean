import Verif.Model.SplineBuild
import Verif.Props.Search
import Verif.Proofs.DemoOk

/-! # C12 for splines built from a sorted array -/

namespace EDB

theorem addAll_built {size e : Nat} {mem : Nat → Nat × Nat} : ∀ (ks ls : List Nat) (s : Spline), Built size e 0 mem s ks →
    Built size e 0 mem (s.addAll ks.length ls) (ks ++ ls) := by
  intro ks ls
  induction ls generalizing ks with
  | nil => intro s h; rw [List.append_nil]; exact h
  | cons l ls ih =>
    intro s h
    have h1 := ih (ks ++ [l]) (s.add l ks.length) (by
      have := Built.add l h
      rwa [Nat.zero_add] at this)
    rw [List.length_append, List.length_singleton, List.append_assoc] at h1
    exact h1

/-- C12 for `splineBuild`: a spline of any capacity from 4 on, built from strictly ascending keys with any error bound.
For every key between element `i` and the next (or behind the last) the prediction succeeds and its range contains `i`; the
estimate lies in the range and the range ends at the last element. -/
theorem C12_build (size e0 e : Nat) (mem : Nat → Nat × Nat) (ks : List Nat) (cmp : Nat → Nat → Int) (K key i : Nat)
    (hsize : 4 ≤ size) (hcmp : CmpOk cmp K) (hasc : ks.Pairwise (· < ·)) (hK : ∀ k ∈ ks, k < K) (hkey : key < K)
    (hfit : ∀ x ∈ ks, ∀ y ∈ ks, (y - x) * (ks.length + e) < 2 ^ 63) (hpages : ks.length < 2 ^ 32)
    (first : Nat) (hi : ks[i]? = some first) (hlo : first ≤ key) (hhi : ∀ k, ks[i + 1]? = some k → key < k) :
    ∃ r, ((Spline.init size e0 mem).build ks e).find cmp key = .ok r ∧ r.low ≤ i ∧ i ≤ r.high ∧ r.low ≤ r.loc ∧ r.loc ≤ r.high ∧
      r.high < ks.length :=
  C12_bracket size e mem _ ks cmp K key i hsize hcmp (addAll_built [] ks (Spline.init size e mem) .init) hasc hK hkey hfit hpages first hi
    hlo hhi

/-- The hypotheses hold of seven keys in a spline with room for four points (key 47 lies behind element 3), … -/
example : let ks := [3, 7, 20, 45, 56, 300, 301]
    ks.Pairwise (· < ·) ∧ (∀ k ∈ ks, k < 1000) ∧ (∀ x ∈ ks, ∀ y ∈ ks, (y - x) * (ks.length + 1) < 2 ^ 63) ∧ ks.length < 2 ^ 32 ∧
      ks[3]? = some 45 ∧ (∀ k, ks[3 + 1]? = some k → 47 < k) := by
  decide

/-- … and the range found is this. -/
example : (((Spline.init 4 8 (fun _ => (0, 0))).build [3, 7, 20, 45, 56, 300, 301] 1).find (fun a b => (a : Int) - b) 47).check
    (fun r => r.low ≤ 3 && 3 ≤ r.high && decide (r.high < 7)) = true := by
  decide +kernel

end EDB
