import Verif.Proofs.SplineSearch
import Mathlib.Tactic.Ring
import Mathlib.Tactic.Linarith

/-! Helper lemmas: the corridor invariant of the spline.

`h p` is the first key of page `p`; pages `a, a+1, …, b-1` have been added in order. -/

namespace EDB
namespace Spline

/-- Every page between the spline points at pages `P` and `X` is within `e` pages of the straight line. -/
def Seg (h : Nat → Nat) (e P X : Nat) : Prop :=
  ∀ p, P ≤ p → p ≤ X → (X - P) * (h p - h P) ≤ (p - P + e) * (h X - h P) ∧
    (p - P) * (h X - h P) ≤ (X - P) * (h p - h P) + e * (h X - h P)

/-- `v` is the tightest upper corridor limit, seen from the spline point of page `P`. -/
def UpLim (h : Nat → Nat) (e P b : Nat) (v : Nat × Nat) : Prop :=
  ∃ u, P < u ∧ u < b ∧ v = (h u, u + e) ∧
    ∀ p, P < p → p < b → (u + e - P) * (h p - h P) ≤ (p + e - P) * (h u - h P)

/-- `v` is the tightest lower corridor limit, seen from the spline point of page `P` (unless it lies below
that point, in which case it restricts nothing). -/
def LoLim (h : Nat → Nat) (e P b : Nat) (v : Nat × Nat) : Prop :=
  ∃ l, P < l ∧ l < b ∧ v = (h l, lowPage e l) ∧ (P ≤ lowPage e l →
    ∀ p, P < p → p < b → (lowPage e p - P) * (h l - h P) ≤ (lowPage e l - P) * (h p - h P))

/-- Invariant once at least two pages were added. -/
structure Many (s : Spline) (h : Nat → Nat) (a b : Nat) : Prop where
  temp : s.temp = true
  two : 2 ≤ s.count
  pts : ∀ i, i < s.count → (s.pt i).1 = h (s.pt i).2
  asc : ∀ i j, i < j → j < s.count → (s.pt i).2 < (s.pt j).2
  lo : a ≤ (s.pt 0).2
  last : (s.pt (s.count - 1)).2 + 1 = b
  lastKey : s.lastKey = h (b - 1)
  lastLoc : s.lastLoc = b - 1
  seg : ∀ i, i + 1 < s.count → Seg h s.maxErr (s.pt i).2 (s.pt (i + 1)).2
  up : UpLim h s.maxErr (s.pt (s.count - 2)).2 b s.upper
  low : LoLim h s.maxErr (s.pt (s.count - 2)).2 b s.lower

/-- The spline after pages `a … b-1` with first keys `h` were added. -/
structure Inv (s : Spline) (h : Nat → Nat) (a b : Nat) : Prop where
  le : a ≤ b
  size4 : 4 ≤ s.size
  cnt : s.count ≤ s.size
  numAdd : s.numAdd = b - a
  first : a < b → s.first = (h a, a)
  zero : b = a → s.count = 0 ∧ s.temp = false
  one : b = a + 1 → s.count = 1 ∧ s.pt 0 = (h a, a) ∧ s.temp = false ∧ s.lastKey = h a
  many : a + 2 ≤ b → Many s h a b

/-! ### Ring buffer -/

theorem ring_inj {i j st n : Nat} (hi : i < n) (hj : j < n) : (j + st) % n = (i + st) % n ↔ j = i := by
  constructor
  · intro h
    have h1 : ((j + st) + (n - st % n)) % n = ((i + st) + (n - st % n)) % n := by
      rw [Nat.add_mod (j + st), h, ← Nat.add_mod]
    have hst := Nat.div_add_mod st n
    have hlt := Nat.mod_lt st (show n > 0 by omega)
    have e : ∀ k, (k + st) + (n - st % n) = k + n * (st / n + 1) := by
      intro k; rw [Nat.mul_add]; omega
    rw [e, e, Nat.add_mul_mod_self_left, Nat.add_mul_mod_self_left, Nat.mod_eq_of_lt hi, Nat.mod_eq_of_lt hj] at h1
    exact h1
  · rintro rfl; rfl

theorem pt_setPt (s : Spline) {i j : Nat} (v : Nat × Nat) (hi : i < s.size) (hj : j < s.size) :
    (s.setPt i v).pt j = if j = i then v else s.pt j := by
  unfold setPt pt
  simp only [ring_inj hi hj]

theorem pt_shift (s : Spline) (j n : Nat) : s.pts ((j + (s.start + n) % s.size) % s.size) = s.pt (j + n) := by
  unfold pt
  rw [Nat.add_mod_mod]
  congr 2
  omega

/-! ### Cross multiplication -/

theorem cross_trans {y1 x1 y2 x2 y3 x3 : Nat} (h2 : 0 < x2) (h12 : y1 * x2 ≤ y2 * x1) (h23 : y2 * x3 ≤ y3 * x2) :
    y1 * x3 ≤ y3 * x1 := by
  apply Nat.le_of_mul_le_mul_right _ h2
  calc y1 * x3 * x2 = y1 * x2 * x3 := by ring
    _ ≤ y2 * x1 * x3 := Nat.mul_le_mul_right _ h12
    _ = y2 * x3 * x1 := by ring
    _ ≤ y3 * x2 * x1 := Nat.mul_le_mul_right _ h23
    _ = y3 * x1 * x2 := by ring

/-! ### The comparisons of the code on non-negative differences -/

theorem isLeft_nat {x1 x2 y1 y2 : Nat} {z1 z2 : Int} (e1 : z1 = y1) (e2 : z2 = y2) (h1 : y1 * x2 < 2 ^ 63)
    (h2 : y2 * x1 < 2 ^ 63) : isLeft x1 z1 x2 z2 = decide (y1 * x2 > y2 * x1) := by
  unfold isLeft
  rw [u64_of_nat (n := y1 * x2) (by rw [e1]; push_cast; rfl) (by omega),
    u64_of_nat (n := y2 * x1) (by rw [e2]; push_cast; rfl) (by omega)]

theorem isRight_nat {x1 x2 y1 y2 : Nat} {z1 z2 : Int} (e1 : z1 = y1) (e2 : z2 = y2) (h1 : y1 * x2 < 2 ^ 63)
    (h2 : y2 * x1 < 2 ^ 63) : isRight x1 z1 x2 z2 = decide (y1 * x2 < y2 * x1) := by
  unfold isRight
  rw [u64_of_nat (n := y1 * x2) (by rw [e1]; push_cast; rfl) (by omega),
    u64_of_nat (n := y2 * x1) (by rw [e2]; push_cast; rfl) (by omega)]

theorem isRight_neg {x1 x2 y1 n : Nat} {z1 z2 : Int} (e1 : z1 = y1) (e2 : z2 = -(n : Int)) (hn : 0 < n) (hx : 0 < x1)
    (h1 : y1 * x2 < 2 ^ 63) (h2 : n * x1 < 2 ^ 63) : isRight x1 z1 x2 z2 = true := by
  unfold isRight
  rw [u64_of_nat (n := y1 * x2) (by rw [e1]; push_cast; rfl) (by omega)]
  have := u64_of_neg (z := z2 * (x1 : Int)) (n := n * x1) (by rw [e2]; push_cast; ring) h2 (Nat.mul_pos hn hx)
  rw [decide_eq_true_eq]
  omega

/-- What is assumed of the pages added: first keys ascend, and the 64-bit products cannot overflow. -/
structure Feed (h : Nat → Nat) (e a b : Nat) : Prop where
  mono : ∀ p q, a ≤ p → p < q → q < b → h p < h q
  fits : (h (b - 1) - h a) * (b + e) < 2 ^ 63
  pages : b < 2 ^ 32

theorem Feed.mul_lt {h : Nat → Nat} {e a b : Nat} (F : Feed h e a b) {p q y : Nat} (hp : a ≤ p)
    (hq : q < b) (hpq : p ≤ q) (hy : y ≤ b + e) : y * (h q - h p) < 2 ^ 63 := by
  have h1 : h a ≤ h p := by
    rcases Nat.eq_or_lt_of_le hp with rfl | hlt
    · exact le_refl _
    · exact le_of_lt (F.mono _ _ (le_refl _) hlt (by omega))
  have h2 : h q ≤ h (b - 1) := by
    rcases Nat.eq_or_lt_of_le (show q ≤ b - 1 by omega) with heq | hlt
    · rw [heq]
    · exact le_of_lt (F.mono _ _ (by omega) hlt (by omega))
  refine lt_of_le_of_lt ?_ F.fits
  rw [Nat.mul_comm y]
  exact Nat.mul_le_mul (by omega) hy

theorem Feed.prev {h : Nat → Nat} {e a b : Nat} (F : Feed h e a (b + 1)) (hab : a < b) : Feed h e a b where
  mono p q hp hpq hq := F.mono p q hp hpq (by omega)
  fits := by
    rw [Nat.mul_comm]
    exact F.mul_lt (le_refl _) (by omega) (by omega) (by omega)
  pages := by have := F.pages; omega

theorem lowPage_mono {e p q : Nat} (h : p ≤ q) : lowPage e p ≤ lowPage e q := by
  unfold lowPage; split_ifs <;> omega

theorem lowPage_le (e p : Nat) : lowPage e p ≤ p := by unfold lowPage; split_ifs <;> omega

theorem le_lowPage (e p : Nat) : p ≤ lowPage e p + e := by unfold lowPage; split_ifs <;> omega

/-! ### Geometry of one step -/

theorem seg_adjacent (h : Nat → Nat) (e P : Nat) : Seg h e P (P + 1) := by
  intro p h1 h2
  have : p = P ∨ p = P + 1 := by omega
  rcases this with rfl | rfl
  · simp
  · constructor
    · exact Nat.mul_le_mul_right _ (by omega)
    · omega

/-- A point inside the corridor keeps every page seen so far within `e` of the new segment. -/
theorem seg_of_inside {h : Nat → Nat} {e P b u l : Nat} (hm : ∀ p q, P ≤ p → p < q → q < b + 1 → h p < h q)
    (hu : P < u) (hub : u < b) (hl : P < l) (hlb : l < b)
    (hup : ∀ p, P < p → p < b → (u + e - P) * (h p - h P) ≤ (p + e - P) * (h u - h P))
    (hlo : ∀ p, P < p → p < b → (lowPage e p - P) * (h l - h P) ≤ (lowPage e l - P) * (h p - h P))
    (t1 : (b - P) * (h u - h P) ≤ (u + e - P) * (h b - h P))
    (t2 : (lowPage e l - P) * (h b - h P) ≤ (b - P) * (h l - h P)) : Seg h e P b := by
  intro p h1 h2
  rcases Nat.eq_or_lt_of_le h1 with rfl | hp
  · simp
  rcases Nat.eq_or_lt_of_le h2 with rfl | hpb
  · constructor
    · exact Nat.mul_le_mul_right _ (by omega)
    · omega
  have mu := hm P u (le_refl _) hu (by omega)
  have ml := hm P l (le_refl _) hl (by omega)
  constructor
  · have := cross_trans (by omega) t1 (hup p hp hpb)
    rw [show p - P + e = p + e - P by omega]
    exact this
  · have h3 := cross_trans (by omega) (hlo p hp hpb) t2
    have h4 : p - P ≤ (lowPage e p - P) + e := by have := le_lowPage e p; omega
    calc (p - P) * (h b - h P) ≤ ((lowPage e p - P) + e) * (h b - h P) := Nat.mul_le_mul_right _ h4
      _ = (lowPage e p - P) * (h b - h P) + e * (h b - h P) := by ring
      _ ≤ _ := by omega

theorem upLim_single (h : Nat → Nat) (e P : Nat) : UpLim h e P (P + 2) (h (P + 1), P + 1 + e) := by
  refine ⟨P + 1, by omega, by omega, rfl, ?_⟩
  intro p h1 h2
  have : p = P + 1 := by omega
  subst this; exact le_refl _

theorem loLim_single (h : Nat → Nat) (e P : Nat) : LoLim h e P (P + 2) (h (P + 1), lowPage e (P + 1)) := by
  refine ⟨P + 1, by omega, by omega, rfl, ?_⟩
  intro _ p h1 h2
  have : p = P + 1 := by omega
  subst this; exact le_refl _

end Spline
end EDB
