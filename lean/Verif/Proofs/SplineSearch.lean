import Verif.Model.Spline
import Verif.Proofs.Node

/-! Helper lemmas: the segment search and the interpolation of the spline. -/

namespace EDB
namespace Spline

/-- Stored points strictly ascending by key, keys below `K`. -/
structure AscPts (s : Spline) (K : Nat) : Prop where
  asc : ∀ i j, i < j → j < s.count → (s.pt i).1 < (s.pt j).1
  bound : ∀ i, i < s.count → (s.pt i).1 < K

theorem search_ok {s : Spline} {cmp : Nat → Nat → Int} {K key : Nat} (hc : CmpOk cmp K) (hs : AscPts s K)
    (hk : key < K) (h2 : 2 ≤ s.count) (h0 : (s.pt 0).1 ≤ key) :
    ∀ (f : Nat) (low high : Nat), high < s.count → low ≤ high → high - low + 1 ≤ f →
    (low = 0 ∨ (s.pt (low - 1)).1 < key) → key ≤ (s.pt high).1 →
    ∃ i, s.search cmp key f low high = .ok i ∧ 1 ≤ i ∧ i < s.count ∧
      (s.pt (i - 1)).1 ≤ key ∧ key ≤ (s.pt i).1 := by
  intro f
  induction f with
  | zero => intro low high _ _ hf; omega
  | succ f ih =>
    intro low high hh hle hf hlo hhi
    unfold search
    rw [if_pos (by omega)]
    have hmid : (low : Int) + ((high : Int) - low).tdiv 2 = ((low + (high - low) / 2 : Nat) : Int) := by
      rw [Int.tdiv_eq_ediv_of_nonneg (by omega)]; omega
    simp only [hmid]
    generalize hm : low + (high - low) / 2 = m
    by_cases hm0 : m = 0
    · rw [if_pos (by omega)]
      refine ⟨1, rfl, le_refl _, by omega, h0, ?_⟩
      have hh1 : high ≤ 1 := by omega
      rcases Nat.lt_or_ge high 1 with h | h
      · have h00 : high = 0 := by omega
        have := hs.asc 0 1 (by omega) (by omega)
        rw [h00] at hhi
        omega
      · have : high = 1 := by omega
        rwa [this] at hhi
    · rw [if_neg (by omega)]
      have hmc : m < s.count := by omega
      have hsub : ((m : Int) - 1).toNat = m - 1 := by omega
      simp only [Int.toNat_natCast, hsub]
      have b1 := hs.bound m hmc
      have b2 := hs.bound (m - 1) (by omega)
      by_cases hf1 : cmp (s.pt m).1 key ≥ 0 ∧ cmp (s.pt (m - 1)).1 key ≤ 0
      · rw [if_pos hf1]
        exact ⟨m, rfl, by omega, hmc, (hc.le b2 hk).mp hf1.2, (hc.ge b1 hk).mp hf1.1⟩
      · rw [if_neg hf1]
        rw [hc.ge b1 hk, hc.le b2 hk] at hf1
        have hasc := hs.asc (m - 1) m (by omega) hmc
        by_cases hgt : cmp (s.pt m).1 key > 0
        · rw [if_pos hgt]
          have hgt' := (hc.pos b1 hk).mp hgt
          have hq : key < (s.pt (m - 1)).1 := by omega
          have hlow : low ≤ m - 1 := by
            by_contra hcon
            have hlm : low = m := by omega
            rcases hlo with h | h
            · omega
            · rw [hlm] at h; omega
          have := ih low (m - 1) (by omega) hlow (by omega) hlo (by omega)
          rw [show ((m : Int) - 1) = ((m - 1 : Nat) : Int) by omega]
          exact this
        · rw [if_neg hgt]
          rw [hc.pos b1 hk] at hgt
          have hp : (s.pt m).1 < key := by omega
          have hlow : m + 1 ≤ high := by
            by_contra hcon
            have hlm : high = m := by omega
            rw [hlm] at hhi; omega
          have := ih (m + 1) high hh hlow (by omega) (Or.inr (by simpa using hp)) hhi
          rw [show ((m : Int) + 1) = ((m + 1 : Nat) : Int) by omega]
          exact this

theorem u64_of_nat {z : Int} {n : Nat} (h : z = n) (hn : n < 2 ^ 64) : u64 z = n := by
  subst h; unfold u64; omega

theorem u64_of_neg {z : Int} {n : Nat} (h : z = -(n : Int)) (hn : n < 2 ^ 63) (h0 : 0 < n) : 2 ^ 63 < u64 z := by
  subst h; unfold u64; omega

end Spline
end EDB
