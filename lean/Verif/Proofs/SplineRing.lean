import Verif.Proofs.SplineAdd

/-! Helper lemmas: the spline ring never overflows, whatever is added (no assumption on keys or products). -/

namespace EDB
namespace Spline

/-- Ring invariant for arbitrary additions and partial erases. `n` counts additions, `last` is the last
accepted point. -/
structure Ring (s : Spline) (n : Nat) (last : Nat × Nat) : Prop where
  size4 : 4 ≤ s.size
  cnt : s.count ≤ s.size
  num : s.numAdd = n
  zero : n = 0 → s.count = 0
  one : n = 1 → s.count = 1
  many : 2 ≤ n → 2 ≤ s.count
  temp : s.temp = true ↔ 2 ≤ n
  pt : 1 ≤ n → s.pt (s.count - 1) = last
  key : 1 ≤ n → s.lastKey = last.1

theorem Ring.init (size e : Nat) (mem : Nat → Nat × Nat) (l : Nat × Nat) (h4 : 4 ≤ size) :
    Ring (Spline.init size e mem) 0 l where
  size4 := h4
  cnt := Nat.zero_le _
  num := rfl
  zero _ := rfl
  one h := absurd h (by omega)
  many h := absurd h (by omega)
  temp := by
    constructor
    · intro h; cases h
    · intro h; omega
  pt h := absurd h (by omega)
  key h := absurd h (by omega)

theorem Ring.dropped {s t : Spline} {n m : Nat} {last : Nat × Nat} (R : Ring s n last) (hm : m + 2 ≤ s.count)
    (D : Dropped s t m) : Ring t n last where
  size4 := D.size ▸ R.size4
  cnt := by rw [D.count, D.size]; have := R.cnt; omega
  num := D.numAdd.trans R.num
  zero h := by have := R.zero h; omega
  one h := by have := R.one h; omega
  many _ := by rw [D.count]; omega
  temp := by rw [D.temp]; exact R.temp
  pt h := by rw [D.pt, D.count, show s.count - m - 1 + m = s.count - 1 by omega]; exact R.pt h
  key h := D.lastKey.trans (R.key h)

theorem Ring.clean {s : Spline} {n : Nat} {last : Nat × Nat} (R : Ring s n last) (mp : Nat) :
    Ring (s.clean mp) n last := by
  rcases clean_dropped s mp with h | ⟨m, hm, D⟩
  · rw [h]; exact R
  · exact R.dropped hm D

theorem Ring.erase {s : Spline} {n : Nat} {last : Nat × Nat} (R : Ring s n last) (k : Nat) (hk : k ≠ s.count) :
    Ring (s.erase k) n last := by
  by_cases h : k + 2 ≤ s.count
  · exact R.dropped h (erase_dropped s h)
  · have : s.erase k = s := by
      unfold Spline.erase
      rw [if_pos (by omega)]
    rw [this]; exact R

theorem addMain_ring {s : Spline} {key page : Nat} (h4 : 4 ≤ s.size) (hc : s.count ≤ s.size) (h1 : 1 ≤ s.count)
    (h2 : s.temp = true → 2 ≤ s.count) (h3 : s.temp = false → s.count = 1) :
    (s.addMain key page).count ≤ s.size ∧ 2 ≤ (s.addMain key page).count ∧ (s.addMain key page).size = s.size ∧
    (s.addMain key page).numAdd = s.numAdd ∧ (s.addMain key page).temp = true ∧
    (s.addMain key page).lastKey = key ∧
    (s.addMain key page).pt ((s.addMain key page).count - 1) = (key, page) := by
  obtain ⟨t, ht⟩ : ∃ t : Spline, t = if s.temp then { s with count := s.count - 1 } else s := ⟨_, rfl⟩
  have t1 : 1 ≤ t.count ∧ t.count < t.size ∧ t.size = s.size ∧ t.numAdd = s.numAdd := by
    cases hb : s.temp
    · rw [hb, if_neg (by decide)] at ht
      have := h3 hb
      subst ht; refine ⟨by omega, by omega, rfl, rfl⟩
    · rw [hb, if_pos rfl] at ht
      have := h2 hb
      subst ht; refine ⟨?_, ?_, rfl, rfl⟩ <;> simp only <;> omega
  obtain ⟨tc, ts, tz, tn⟩ := t1
  -- the state before the temporary point is stored
  have hu : ∃ u : Spline, s.addMain key page = u.addTemp key page ∧ 1 ≤ u.count ∧ u.count < u.size ∧ u.size = s.size ∧
      u.numAdd = s.numAdd := by
    refine ⟨_, rfl, ?_⟩
    simp only [← ht]
    rw [if_neg (show ¬ (t.count ≥ t.size) by omega)]
    split_ifs
    · unfold addOutside
      simp only
      by_cases hf : t.count + 1 ≥ t.size
      · rw [if_pos (by simpa [setPt] using hf)]
        have D := erase_dropped ({ t.setPt t.count (t.lastKey, t.lastLoc) with
          count := t.count + 1, temp := false, lower := (key, lowPage t.maxErr page),
          upper := (key, page + t.maxErr) } : Spline) (m := 1) (by simp only; omega)
        have e1 := D.count; have e2 := D.size; have e3 := D.numAdd
        simp only [setPt] at e1 e2 e3 ⊢
        refine ⟨by omega, by omega, by omega, by omega⟩
      · rw [if_neg (by simpa [setPt] using hf)]
        simp only [setPt]
        refine ⟨by omega, by omega, by omega, by omega⟩
    · obtain ⟨f1, f2, f3, f4, f5⟩ := addInside_fields t key page (t.pt (t.count - 1)) t.upper t.lower
      refine ⟨by omega, by omega, by omega, by omega⟩
  obtain ⟨u, hu0, hu1, hu2, hu3, hu4⟩ := hu
  rw [hu0]
  obtain ⟨g1, g2, g3, g4, g5⟩ := addTemp_fields u key page
  refine ⟨by omega, by omega, by omega, by omega, rfl, rfl, ?_⟩
  rw [g4, Nat.add_sub_cancel, pt_addTemp hu2 hu2, if_pos rfl]

/-- An accepted point: any of the first two, or a key above the last accepted one. -/
theorem Ring.add {s : Spline} {n : Nat} {last : Nat × Nat} (R : Ring s n last) {key page : Nat}
    (ha : n < 2 ∨ last.1 < key) : Ring (s.add key page) (n + 1) (key, page) := by
  have h4 := R.size4
  have hnum := R.num
  unfold Spline.add
  simp only
  rcases Nat.eq_zero_or_pos n with h0 | hpos
  · subst h0
    have c0 := R.zero rfl
    have ht : s.temp = false := by
      cases hb : s.temp
      · rfl
      · have := R.temp.mp hb; omega
    rw [if_pos (show s.numAdd + 1 = 1 by omega)]
    refine ⟨h4, ?_, ?_, ?_, ?_, ?_, ?_, ?_, fun _ => rfl⟩
    · show s.count + 1 ≤ s.size
      omega
    · show s.numAdd + 1 = 0 + 1
      omega
    · intro h; omega
    · intro _
      show s.count + 1 = 1
      omega
    · intro h; omega
    · show s.temp = true ↔ _
      rw [ht]; simp
    · intro _
      show (({ s with numAdd := s.numAdd + 1 } : Spline).setPt 0 (key, page)).pt (s.count + 1 - 1) = _
      rw [c0, pt_setPt _ _ (by simp only; omega) (by simp only; omega), if_pos rfl]
  · rw [if_neg (show ¬ (s.numAdd + 1 = 1) by omega)]
    have hcnt1 : 1 ≤ s.count := by
      rcases Nat.lt_or_ge n 2 with h | h
      · have := R.one (by omega); omega
      · have := R.many h; omega
    have fin : ∀ t : Spline, t.count = s.count → t.size = s.size → t.temp = s.temp → t.numAdd = n + 1 →
        Ring (t.addMain key page) (n + 1) (key, page) := by
      intro t e1 e2 e3 e4
      have := addMain_ring (s := t) (key := key) (page := page) (by omega) (by have := R.cnt; omega) (by omega)
        (fun h => by rw [e3] at h; rw [e1]; exact R.many (R.temp.mp h))
        (fun h => by
          rw [e1]
          rcases Nat.lt_or_ge n 2 with h' | h'
          · exact R.one (by omega)
          · have := R.temp.mpr h'; rw [e3, this] at h; cases h)
      obtain ⟨a1, a2, a3, a4, a5, a6, a7⟩ := this
      refine ⟨by omega, by omega, by omega, by omega, ?_, ?_, ?_, fun _ => a7, fun _ => a6⟩
      · intro h; omega
      · intro _; exact a2
      · rw [a5]; simp; omega
    rcases Nat.eq_or_lt_of_le (show 1 ≤ n by omega) with h1 | h1
    · rw [if_pos (show s.numAdd + 1 = 2 by omega)]
      simp only
      rw [if_neg (show ¬ (key ≤ key ∧ s.numAdd + 1 ≠ 2) by omega)]
      exact fin _ rfl rfl rfl (by simp only; omega)
    · rw [if_neg (show ¬ (s.numAdd + 1 = 2) by omega)]
      simp only
      have hk := R.key (by omega)
      rw [if_neg (show ¬ (key ≤ s.lastKey ∧ s.numAdd + 1 ≠ 2) by omega)]
      exact fin _ rfl rfl rfl (by simp only; omega)

/-- A repeated or smaller key is ignored. -/
theorem Ring.skip {s : Spline} {n : Nat} {last : Nat × Nat} (R : Ring s n last) {key page : Nat}
    (h2 : 2 ≤ n) (hk : key ≤ last.1) : Ring (s.add key page) (n + 1) last := by
  have hnum := R.num
  have hkey := R.key (by omega)
  unfold Spline.add
  simp only
  rw [if_neg (show ¬ (s.numAdd + 1 = 1) by omega), if_neg (show ¬ (s.numAdd + 1 = 2) by omega)]
  simp only
  rw [if_pos (show key ≤ s.lastKey ∧ s.numAdd + 1 ≠ 2 by omega)]
  have hm := R.many h2
  refine ⟨R.size4, R.cnt, ?_, ?_, ?_, fun _ => hm, ?_, fun _ => R.pt (by omega), fun _ => hkey⟩
  · show s.numAdd + 1 = n + 1
    omega
  · intro h; omega
  · intro h; omega
  · show s.temp = true ↔ _
    rw [R.temp]; omega

end Spline
end EDB
