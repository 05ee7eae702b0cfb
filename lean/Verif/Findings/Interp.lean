import Verif.Props.Interp
import Verif.Findings.Estimate

/-!
# C62: records lost by rounding
-/

namespace EDB

open Spec (Op Rnd)

/-- Three pages: the keys 0 and `u - 1`, `u` and `u + 1`, `u + 2` and `u + 3`. -/
def lossPuts (u : Nat) : List Op := [.put 0 (dat 1), .put (u - 1) (dat 2), .put u (dat 3), .put (u + 1) (dat 4),
  .put (u + 2) (dat 5), .put (u + 3) (dat 6), .flush]

/-- The spline after `lossPuts u` is one segment, from page 0 to page 2. -/
def lossSpline (u : Nat) (s : Spline) : Prop :=
  s.count = 2 ∧ s.pt 0 = (0, 0) ∧ s.pt 1 = (u + 2, 2) ∧ s.maxErr = 1

/-- If the rounded quotient is 2, page 0 is not searched. -/
theorem findQ_loss {b : Nat} (q : Rnd b) {s : Spline} {u : Nat} (h : lossSpline u s) (hu : 1 ≤ u) (h64 : u < 2 ^ 62)
    (hq : q.f (q.f ((2 * u - 2 : ℕ) : ℚ) / q.f ((u + 2 : ℕ) : ℚ)) = 2)
    {cmp : Nat → Nat → Int} {K : Nat} (hc : CmpOk cmp K) (hK : u + 2 < K)
    : s.findQ q cmp (u - 1) = .ok ⟨2, 1, 2⟩ := by
  obtain ⟨h1, h2, h3, h4⟩ := h
  unfold Spline.findQ
  have hk : u - 1 < K := by omega
  rw [h1, h2, show 2 - 1 = 1 from rfl, h3]
  have n0 : ¬ (cmp (u - 1) ((0, 0) : Nat × Nat).1 < 0 ∨ 2 ≤ 1) := by
    simp only
    rw [hc.lt _ _ hk (by omega)]
    omega
  have n1 : ¬ cmp (u - 1) ((u + 2, 2) : Nat × Nat).1 > 0 := by
    simp only
    have := hc.pos hk (show u + 2 < K by omega)
    rw [this]
    omega
  rw [if_neg n0, if_neg n1]
  have hs : s.search cmp (u - 1) (2 + 1) 0 (((2 : Nat) : Int) - 1) = .ok 1 := by
    unfold Spline.search
    rfl
  rw [hs, Res.ok_bind]
  unfold Spline.interpQ
  simp only [show 1 - 1 = 0 from rfl, h2, h3, h1, h4, show 2 - 1 = 1 from rfl]
  rw [if_neg (by omega)]
  have hprod : Spline.u64 ((((u - 1 : ℕ) : Int) - ((0 : ℕ) : Int)) * (((2 : ℕ) : Int) - ((0 : ℕ) : Int))) = 2 * u - 2 := by
    apply Spline.u64_of_nat
    · push_cast [Nat.cast_sub hu]; omega
    · omega
  rw [hprod, Nat.sub_zero, hq, if_pos (by norm_num)]
  rfl

/-- What the run has to show: the table holds the record of key `u - 1`, exact arithmetic finds it, and a search of the pages 1 to 2
fails. -/
def lossTest (c : Cfg) (u : Nat) (d : Data) : Bool :=
  decide (d.next = 3 ∧ pageCount d.wbuf = 0 ∧ d.spl.count = 2 ∧ d.spl.pt 0 = (0, 0) ∧ d.spl.pt 1 = (u + 2, 2) ∧ d.spl.maxErr = 1) &&
  ((get c d (u - 1)).check fun (_, code, out) => decide (code = 0 ∧ out = some (dat 2))) &&
  ((searchFrom c d (u - 1) ⟨2, 1, 2⟩).check fun (_, found) => !found)

theorem loss_get {b : Nat} (r : Rnd 24) (q : Rnd b) {c : Cfg} {u : Nat} {d : Data} (ht : lossTest c u d = true)
    (hbs : c.binSearch = false) (hu : 1 ≤ u) (h64 : u < 2 ^ 62)
    (hq : q.f (q.f ((2 * u - 2 : ℕ) : ℚ) / q.f ((u + 2 : ℕ) : ℚ)) = 2) {K : Nat} (hc : CmpOk c.cmpKey K) (hK : u + 2 < K) :
    (∃ d', get c d (u - 1) = .ok (d', 0, some (dat 2))) ∧ ∃ d', getQ r q c d (u - 1) = .ok (d', -1, none) := by
  simp only [lossTest, Bool.and_eq_true, decide_eq_true_eq] at ht
  obtain ⟨⟨⟨h1, h2, h3⟩, h4⟩, h5⟩ := ht
  obtain ⟨⟨d1, code, out⟩, e1, h6⟩ := Res.check_ok h4
  simp only [decide_eq_true_eq] at h6
  obtain ⟨rfl, rfl⟩ := h6
  obtain ⟨⟨d2, f⟩, e2, h7⟩ := Res.check_ok h5
  simp only [Bool.not_eq_true'] at h7
  subst h7
  refine ⟨⟨d1, e1⟩, d2, ?_⟩
  unfold getQ
  rw [if_neg (by omega), if_neg (by omega)]
  unfold getStoredQ splineSearchQ
  rw [hbs, findQ_loss q h3 hu h64 hq hc hK]
  simp only [Bool.false_eq_true, if_false, Res.ok_bind, e2]

/-- C62 is false where `long double` is binary32 (AVR: the Arduino Mega of platformio.ini).  With 4-byte keys, the pages {0, 2^30 - 1},
{2^30, 2^30 + 1}, {2^30 + 2, 2^30 + 3} and error bound 1, exact arithmetic places key 2^30 - 1 at page 1 and finds it on page 0.
Rounded, (2^31 - 2) / (2^30 + 2) is 2^31 / 2^30 = 2, the pages 1 to 2 are searched, and the stored record is reported as missing. -/
theorem C62_false_float : ∃ d x,
    runOps demo demo0 noIdx (lossPuts (2 ^ 30)) = .ok (d, x) ∧ (∃ d', get demo d (2 ^ 30 - 1) = .ok (d', 0, some (dat 2))) ∧
    ∀ r : Rnd 24, ∃ d', getQ r binary32 demo d (2 ^ 30 - 1) = .ok (d', -1, none) := by
  have h : ((runOps demo demo0 noIdx (lossPuts (2 ^ 30))).check fun (d, _) => lossTest demo (2 ^ 30) d) = true := by decide +kernel
  obtain ⟨⟨d, x⟩, e1, h1⟩ := Res.check_ok h
  have hq : binary32.f (binary32.f ((2 * 2 ^ 30 - 2 : ℕ) : ℚ) / binary32.f ((2 ^ 30 + 2 : ℕ) : ℚ)) = 2 := by
    have hf : ∀ x, binary32.f x = Spec.roundTo 24 toEven x := fun _ => rfl
    rw [hf, hf, hf]
    rw [roundTo_eval (x := ((2 * 2 ^ 30 - 2 : ℕ) : ℚ)) _ 30 (by norm_num) (by norm_num),
      roundTo_eval (x := ((2 ^ 30 + 2 : ℕ) : ℚ)) _ 30 (by norm_num) (by norm_num)]
    have e1 : toEven.g (((2 * 2 ^ 30 - 2 : ℕ) : ℚ) / 2 ^ ((30 : ℤ) + 1 - (24 : ℕ))) = 16777216 := by
      norm_num [toEven, Spec.nearestEven]
    have e2 : toEven.g (((2 ^ 30 + 2 : ℕ) : ℚ) / 2 ^ ((30 : ℤ) + 1 - (24 : ℕ))) = 8388608 := by
      norm_num [toEven, Spec.nearestEven]
    rw [e1, e2, roundTo_eval _ 1 (by norm_num) (by norm_num)]
    norm_num [toEven, Spec.nearestEven]
  exact ⟨d, x, e1, (loss_get (exactRnd 24) binary32 h1 rfl (by norm_num) (by norm_num) hq (demo_cmp (2 ^ 32)) (by norm_num)).1,
    fun r => (loss_get r binary32 h1 rfl (by norm_num) (by norm_num) hq (demo_cmp (2 ^ 32)) (by norm_num)).2⟩

/-- C62 is false where `long double` is binary64 (ARM: the Due and the Feather M0 of platformio.ini) for keys of 8 bytes: the same
with 2^59 in place of 2^30. -/
theorem C62_false_double : ∃ d x,
    runOps longKeys (Data.fresh longKeys (fun _ => 0) (fun _ => (0, 0))) noIdx (lossPuts (2 ^ 59)) = .ok (d, x) ∧
    (∃ d', get longKeys d (2 ^ 59 - 1) = .ok (d', 0, some (dat 2))) ∧
    ∀ r : Rnd 24, ∃ d', getQ r binary64 longKeys d (2 ^ 59 - 1) = .ok (d', -1, none) := by
  have h : ((runOps longKeys (Data.fresh longKeys (fun _ => 0) (fun _ => (0, 0))) noIdx (lossPuts (2 ^ 59))).check fun (d, _) =>
      lossTest longKeys (2 ^ 59) d) = true := by decide +kernel
  obtain ⟨⟨d, x⟩, e1, h1⟩ := Res.check_ok h
  have hq : binary64.f (binary64.f ((2 * 2 ^ 59 - 2 : ℕ) : ℚ) / binary64.f ((2 ^ 59 + 2 : ℕ) : ℚ)) = 2 := by
    have hf : ∀ x, binary64.f x = Spec.roundTo 53 toEven x := fun _ => rfl
    rw [hf, hf, hf]
    rw [roundTo_eval (x := ((2 * 2 ^ 59 - 2 : ℕ) : ℚ)) _ 59 (by norm_num) (by norm_num),
      roundTo_eval (x := ((2 ^ 59 + 2 : ℕ) : ℚ)) _ 59 (by norm_num) (by norm_num)]
    have e1 : toEven.g (((2 * 2 ^ 59 - 2 : ℕ) : ℚ) / 2 ^ ((59 : ℤ) + 1 - (53 : ℕ))) = 2 ^ 53 := by
      norm_num [toEven, Spec.nearestEven]
    have e2 : toEven.g (((2 ^ 59 + 2 : ℕ) : ℚ) / 2 ^ ((59 : ℤ) + 1 - (53 : ℕ))) = 2 ^ 52 := by
      norm_num [toEven, Spec.nearestEven]
    rw [e1, e2, roundTo_eval _ 1 (by norm_num) (by norm_num)]
    norm_num [toEven, Spec.nearestEven]
  exact ⟨d, x, e1, (loss_get (exactRnd 24) binary64 h1 rfl (by norm_num) (by norm_num) hq (demo_cmp (2 ^ 64)) (by norm_num)).1,
    fun r => (loss_get r binary64 h1 rfl (by norm_num) (by norm_num) hq (demo_cmp (2 ^ 64)) (by norm_num)).2⟩

end EDB
