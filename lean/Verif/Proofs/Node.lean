import Verif.Proofs.Pages
import Mathlib.Tactic.ByContra

/-! Helper lemmas: the in-page search and the key comparator contract. -/

namespace EDB

/-- What the library needs of the user's `compareKey` on keys below `K`: the sign is the numeric order and
"greater" is reported as exactly 1 (embedDB.c:1018 tests `!= 1`). -/
structure CmpOk (cmp : Nat → Nat → Int) (K : Nat) : Prop where
  lt : ∀ a b, a < K → b < K → (cmp a b < 0 ↔ a < b)
  eq : ∀ a b, a < K → b < K → (cmp a b = 0 ↔ a = b)
  gt : ∀ a b, a < K → b < K → (cmp a b = 1 ↔ b < a)

namespace CmpOk
variable {cmp : Nat → Nat → Int} {K : Nat} (h : CmpOk cmp K)
include h

theorem pos {a b : Nat} (ha : a < K) (hb : b < K) : cmp a b > 0 ↔ b < a := by
  have h1 := h.lt a b ha hb
  have h2 := h.eq a b ha hb
  have h3 := h.gt a b ha hb
  constructor
  · intro hp
    by_contra hc
    have : a < b ∨ a = b := by omega
    rcases this with hl | he
    · have := h1.mpr hl; omega
    · have := h2.mpr he; omega
  · intro hp; have := h3.mpr hp; omega

theorem le {a b : Nat} (ha : a < K) (hb : b < K) : cmp a b ≤ 0 ↔ a ≤ b := by
  have := h.pos ha hb
  constructor
  · intro hp; by_contra hc; have := this.mpr (by omega); omega
  · intro hp; by_contra hc; have := this.mp (by omega); omega

theorem ge {a b : Nat} (ha : a < K) (hb : b < K) : cmp a b ≥ 0 ↔ b ≤ a := by
  have := h.lt a b ha hb
  constructor
  · intro hp; by_contra hc; have := this.mpr (by omega); omega
  · intro hp; by_contra hc; have := this.mp (by omega); omega

end CmpOk

/-- Keys of the page strictly ascending and below `K`. -/
structure SortedPage (c : Cfg) (K : Nat) (p : Page) : Prop where
  asc : ∀ i j, i < j → j < pageCount p → slotKey c p i < slotKey c p j
  bound : ∀ i, i < pageCount p → slotKey c p i < K

theorem nodeLoop_ok {c : Cfg} {K : Nat} (hc : CmpOk c.cmpKey K) {p : Page} (hs : SortedPage c K p) {key : Nat}
    (hk : key < K) : ∀ (f : Nat) (first last middle : Int), last - first + 1 < f → 0 ≤ first →
    first ≤ last + 1 → last < pageCount p → (first ≤ last → first ≤ middle ∧ middle ≤ last) →
    (∀ i : Nat, (i : Int) < first → slotKey c p i < key) →
    (∀ i : Nat, last < i → i < pageCount p → key < slotKey c p i) →
    ∃ r, nodeLoop c p key f first last middle = .ok r ∧
      ∀ i, r = some i ↔ i < pageCount p ∧ slotKey c p i = key := by
  intro f
  induction f with
  | zero =>
    intro first last middle hf h0 h1
    simp only [Nat.cast_zero] at hf; omega
  | succ f ih =>
    intro first last middle hf h0 h1 hl hm hlo hhi
    unfold nodeLoop
    by_cases hle : first ≤ last
    · rw [if_pos hle]
      obtain ⟨m1, m2⟩ := hm hle
      obtain ⟨m, rfl⟩ : ∃ m : Nat, middle = m := ⟨middle.toNat, by omega⟩
      have hmc : m < pageCount p := by omega
      have hb := hs.bound m hmc
      simp only [Int.toNat_natCast]
      push_cast at hf
      by_cases hlt : c.cmpKey (slotKey c p m) key < 0
      · rw [if_pos hlt]
        have hlt' := (hc.lt _ _ hb hk).mp hlt
        apply ih
        · omega
        · omega
        · omega
        · exact hl
        · intro hx
          rw [Int.tdiv_eq_ediv_of_nonneg (by omega)]
          omega
        · intro i hi
          rcases Nat.lt_or_ge i m with h | h
          · exact Nat.lt_trans (hs.asc i m h hmc) hlt'
          · have : i = m := by omega
            rw [this]; exact hlt'
        · exact hhi
      · rw [if_neg hlt]
        by_cases heq : c.cmpKey (slotKey c p m) key = 0
        · rw [if_pos heq]
          have he := (hc.eq _ _ hb hk).mp heq
          refine ⟨_, rfl, fun i => ⟨?_, ?_⟩⟩
          · intro h; cases h; exact ⟨hmc, he⟩
          · rintro ⟨hi, hik⟩
            congr 1
            rcases Nat.lt_trichotomy i m with h | h | h
            · have := hs.asc i m h hmc; omega
            · exact h.symm
            · have := hs.asc m i h hi; omega
        · rw [if_neg heq]
          have hgt' : key < slotKey c p m := by
            have e1 := (hc.lt (slotKey c p m) key hb hk)
            have e2 := (hc.eq (slotKey c p m) key hb hk)
            rcases Nat.lt_trichotomy (slotKey c p m) key with h | h | h
            · exact absurd (e1.mpr h) hlt
            · exact absurd (e2.mpr h) heq
            · exact h
          apply ih
          · omega
          · omega
          · omega
          · omega
          · intro hx
            rw [Int.tdiv_eq_ediv_of_nonneg (by omega)]
            omega
          · exact hlo
          · intro i hi hic
            rcases Nat.lt_or_ge m i with h | h
            · exact Nat.lt_trans hgt' (hs.asc m i h hic)
            · have : i = m := by omega
              rw [this]; exact hgt'
    · rw [if_neg hle]
      refine ⟨_, rfl, fun i => ⟨fun h => (by cases h), ?_⟩⟩
      rintro ⟨hi, hik⟩
      by_cases h : (i : Int) < first
      · have := hlo i h; omega
      · have := hhi i (by omega) hi; omega

theorem searchNode_ok {c : Cfg} {K : Nat} (hc : CmpOk c.cmpKey K) {p : Page} (hs : SortedPage c K p) {key : Nat}
    (hk : key < K) : ∃ r, searchNode c p key = .ok r ∧
      ∀ i, r = some i ↔ i < pageCount p ∧ slotKey c p i = key := by
  unfold searchNode
  simp only
  apply nodeLoop_ok hc hs hk
  · push_cast; omega
  · omega
  · omega
  · omega
  · intro h
    rw [Int.tdiv_eq_ediv_of_nonneg h]
    split_ifs <;> omega
  · intro i hi; omega
  · intro i hi; omega

end EDB
