import Verif.Proofs.Ring
import Verif.Proofs.VarResume
import Verif.Spec.Resume

/-!
# Rings over power failures

`LRing N B keep log n a`: the operations of a file of `N` pages to which `n` numbered pages were written around the file and in
which `a` more can be written before the next erase; opening the file sets `a` anew (`foundSpace`).  `keep`: erasing leaves the
contents of the pages.
-/

namespace EDB

inductive LRing (N B : Nat) (keep : Prop) : List Ev → Nat → Nat → Prop where
  | nil : LRing N B keep [] 0 N
  | write {log n a} (h : LRing N B keep log n a) (ha : a ≠ 0) (p : Page) (hp : pageId p = n % 2 ^ 32) :
      LRing N B keep (log ++ [.write (n % N) p]) (n + 1) (a - 1)
  | erase {log n} (h : LRing N B keep log n 0) : LRing N B keep (log ++ [.erase (n % N) (n % N + B)]) n B
  | reopen {log n a} (h : LRing N B keep log n a) (ht : n % N = 0 → a = B → keep) : LRing N B keep log n (foundSpace N B n)

namespace LRing

variable {N B n a : Nat} {keep : Prop} {log : List Ev}

theorem count (h : LRing N B keep log n a) : (Spec.writes log).length = n := by
  induction h with
  | nil => rfl
  | write h hn p _ ih => rw [writes_append, List.length_append, ih]; rfl
  | erase h ih => rw [writes_append, List.length_append, ih]; rfl
  | reopen h _ ih => exact ih

theorem ring (h : LRing N B keep log n a) :
    (Spec.writes log).map Prod.fst = (List.range (Spec.writes log).length).map (· % N) := by
  induction h with
  | nil => rfl
  | write h hn p _ ih =>
    rw [writes_append]
    simp only [Spec.writes, List.map_append, List.length_append, List.length_cons, List.length_nil, List.range_succ, ih,
      List.map_cons, List.map_nil, Nat.zero_add, h.count]
  | erase h ih =>
    rw [writes_append]
    simpa [Spec.writes] using ih
  | reopen h _ ih => exact ih

theorem ids (h : LRing N B keep log n a) : ∀ l ph p, (Spec.writes log)[l]? = some (ph, p) → pageId p = l % 2 ^ 32 := by
  induction h with
  | nil => intro l ph p h; simp [Spec.writes] at h
  | @write log n a h hn q hq ih =>
    intro l ph p hl
    have hc := h.count
    rw [writes_append] at hl
    rcases Nat.lt_trichotomy l n with hlt | rfl | hgt
    · rw [List.getElem?_append_left (by omega)] at hl
      exact ih l ph p hl
    · rw [List.getElem?_append_right (by omega), hc, Nat.sub_self] at hl
      simp only [Spec.writes, List.getElem?_cons_zero, Option.some.injEq, Prod.mk.injEq] at hl
      obtain ⟨rfl, rfl⟩ := hl
      exact hq
    · rw [List.getElem?_eq_none (by simp [Spec.writes, hc]; omega)] at hl
      cases hl
  | erase h ih =>
    intro l ph p hl
    rw [writes_append] at hl
    simp only [Spec.writes, List.append_nil] at hl
    exact ih l ph p hl
  | reopen h _ ih => exact ih

theorem inside (h : LRing N B keep log n a) (hN : 0 < N) : ∀ ph p, Ev.write ph p ∈ log → ph < N := by
  induction h with
  | nil => intro ph p h; cases h
  | write h hn p _ ih =>
    intro ph q hm
    rcases List.mem_append.mp hm with hm | hm
    · exact ih ph q hm
    · simp only [List.mem_singleton, Ev.write.injEq] at hm
      rw [hm.1]; exact Nat.mod_lt _ hN
  | erase h ih =>
    intro ph q hm
    rcases List.mem_append.mp hm with hm | hm
    · exact ih ph q hm
    · simp at hm
  | reopen h _ ih => exact ih

/-- The space left. -/
theorem space (h : LRing N B keep log n a) (hB : 0 < B) (hd : B ∣ N) :
    N ≤ n + a ∧ (n < N → n + a = N) ∧ (N ≤ n → a ≤ B) ∧ (n + a) % B = 0 := by
  have hdN := Nat.mod_eq_zero_of_dvd hd
  induction h with
  | nil => exact ⟨by omega, by omega, by omega, by rw [Nat.zero_add]; exact hdN⟩
  | @write log n a h ha p _ ih =>
    rw [show n + 1 + (a - 1) = n + a by omega]
    exact ⟨ih.1, fun h => ih.2.1 (by omega), fun h => by have := ih.2.2.1; have := ih.2.1; omega, ih.2.2.2⟩
  | @erase log n h ih =>
    refine ⟨by omega, fun h => by omega, fun _ => le_refl _, ?_⟩
    rw [Nat.add_mod_right]; exact ih.2.2.2
  | @reopen log n a h ht ih =>
    have hml := Nat.mod_lt n hB
    unfold foundSpace
    by_cases h1 : n ≤ N
    · rw [if_pos h1, show n + (N - n) = N by omega]
      exact ⟨le_refl _, fun _ => rfl, fun _ => by omega, hdN⟩
    · rw [if_neg h1]
      by_cases h2 : n % N = 0
      · rw [if_pos h2]
        refine ⟨by omega, by omega, by omega, ?_⟩
        exact Nat.mod_eq_zero_of_dvd (hd.trans (Nat.dvd_of_mod_eq_zero h2))
      · rw [if_neg h2]
        refine ⟨by omega, by omega, fun _ => by omega, ?_⟩
        have h3 := Nat.div_add_mod n B
        rw [show n + (B - n % B) = B * (n / B + 1) by rw [Nat.mul_add]; omega]
        exact Nat.mul_mod_right _ _

/-- Erased, but not yet written: the last operation was the erase. -/
theorem torn (h : LRing N B keep log n a) (hB : 0 < B) (hd : B ∣ N) (hlt : B < N) (h0 : n % N = 0) (ha : a = B) (hn : 0 < n) :
    log.getLast? = some (.erase 0 B) := by
  induction h with
  | nil => omega
  | @write log n a h hne p _ ih =>
    have s := h.space hB hd
    have hle : N ≤ n + 1 := Nat.le_of_dvd (by omega) (Nat.dvd_of_mod_eq_zero h0)
    rcases Nat.lt_or_ge n N with h1 | h1
    · have := s.2.1 h1; omega
    · have := s.2.2.1 h1; omega
  | erase h ih => rw [List.getLast?_append, h0, Nat.zero_add]; rfl
  | @reopen log n a h ht ih =>
    unfold foundSpace at ha
    have hle : N ≤ n := Nat.le_of_dvd hn (Nat.dvd_of_mod_eq_zero h0)
    by_cases h1 : n ≤ N
    · rw [if_pos h1] at ha; omega
    · rw [if_neg h1, if_pos h0] at ha; omega

/-- Power fails: some of the operations have been carried out. -/
theorem cut (h : LRing N B keep log n a) : ∀ {l : List Ev}, l <+: log → ∃ n a, LRing N B keep l n a := by
  induction h with
  | nil => intro l hl; rw [List.prefix_nil.mp hl]; exact ⟨_, _, .nil⟩
  | write h hn p hp ih =>
    intro l hl
    rcases List.prefix_concat_iff.mp hl with rfl | hl
    · exact ⟨_, _, h.write hn p hp⟩
    · exact ih hl
  | erase h ih =>
    intro l hl
    rcases List.prefix_concat_iff.mp hl with rfl | hl
    · exact ⟨_, _, h.erase⟩
    · exact ih hl
  | reopen h _ ih => exact ih

/-- Opening the file does not take pages for available that were not. -/
theorem space_le (h : LRing N B keep log n a) (hB : 0 < B) (hd : B ∣ N) : a ≤ foundSpace N B n ∨ (n % N = 0 ∧ a = B) := by
  have s := h.space hB hd
  have hml := Nat.mod_lt n hB
  unfold foundSpace
  have hBa : N ≤ n → B ∣ n → a = 0 ∨ a = B := by
    intro h1 h2
    have h3 := (Nat.dvd_add_right h2).mp (Nat.dvd_of_mod_eq_zero s.2.2.2)
    have h4 := s.2.2.1 h1
    obtain ⟨t, rfl⟩ := h3
    rcases Nat.lt_or_ge t 1 with h5 | h5
    · left; rw [show t = 0 by omega, Nat.mul_zero]
    · right
      have := Nat.mul_le_mul_left B h5
      omega
  rcases Nat.lt_trichotomy n N with h1 | h1 | h1
  · left; rw [if_pos (by omega)]; have := s.2.1 h1; omega
  · rcases hBa (by omega) (h1 ▸ hd) with h2 | h2
    · left; omega
    · right; exact ⟨by rw [h1, Nat.mod_self], h2⟩
  · rw [if_neg (by omega)]
    by_cases h2 : n % N = 0
    · rcases hBa (by omega) (hd.trans (Nat.dvd_of_mod_eq_zero h2)) with h3 | h3
      · left; omega
      · right; exact ⟨h2, h3⟩
    · left
      rw [if_neg h2]
      by_contra hgt
      have h3 : n % B + a = B + (n + a) % B ∨ n % B + a = 2 * B := by
        have h4 := s.2.2.1 (by omega)
        have h5 : (n % B + a) % B = 0 := by rw [Nat.mod_add_mod]; exact s.2.2.2
        have h6 := Nat.div_add_mod (n % B + a) B
        rw [h5] at h6
        generalize (n % B + a) / B = t at h6
        rcases Nat.lt_or_ge t 2 with h7 | h7
        · have : t = 0 ∨ t = 1 := by omega
          rcases this with rfl | rfl <;> omega
        · have := Nat.mul_le_mul_left B h7
          omega
      have := s.2.2.1 (by omega)
      have := s.2.2.2
      omega

/-- Before the first round is complete. -/
theorem rest (h : LRing N B keep log n a) (hB : 0 < B) (hd : B ∣ N) (fx : Option Page → Option Page) :
    n < N → ∀ j, n ≤ j → Spec.image fx log j = none := by
  induction h with
  | nil => intro _ j _; rfl
  | @write log n a h hn p _ ih =>
    intro h1 j hj
    have hi : Spec.image fx (log ++ [Ev.write (n % N) p]) j = if j = n % N then some p else Spec.image fx log j := by
      unfold Spec.image
      rw [List.foldl_append]
      rfl
    rw [hi, if_neg (by rw [Nat.mod_eq_of_lt (by omega)]; omega)]
    exact ih (by omega) j (by omega)
  | @erase log n h ih =>
    intro h1
    have := (h.space hB hd).2.1 h1
    omega
  | reopen h _ ih => exact ih

/-- What the file holds. -/
theorem held (h : LRing N B keep log n a) (hB : 0 < B) (hd : B ∣ N) (hN : 0 < N) (fx : Option Page → Option Page) :
    ∀ l ph p, (Spec.writes log)[l]? = some (ph, p) → n ≤ l + N → ph = l % N ∧
      ∃ k, Spec.image fx log ph = fx^[k] (some p) ∧ (n + a ≤ l + N → k = 0 ∨ keep) := by
  induction h with
  | nil => intro l ph p h; simp [Spec.writes] at h
  | @write log n a h hn q hq ih =>
    intro l ph p hl hm
    have hc := h.count
    rw [writes_append] at hl
    have hi : Spec.image fx (log ++ [Ev.write (n % N) q]) ph = if ph = n % N then some q else Spec.image fx log ph := by
      unfold Spec.image
      rw [List.foldl_append]
      rfl
    rw [hi]
    rcases Nat.lt_trichotomy l n with hlt | rfl | hgt
    · rw [List.getElem?_append_left (by omega)] at hl
      obtain ⟨e1, k, e2, e3⟩ := ih l ph p hl (by omega)
      refine ⟨e1, k, ?_, fun hk => e3 (by omega)⟩
      rw [if_neg, e2]
      intro he
      have := mod_inj_window (N := N) (l := l) (m := n) (by omega) (by omega) (by rw [← e1, he])
      omega
    · rw [List.getElem?_append_right (by omega), hc, Nat.sub_self] at hl
      simp only [Spec.writes, List.getElem?_cons_zero, Option.some.injEq, Prod.mk.injEq] at hl
      obtain ⟨rfl, rfl⟩ := hl
      exact ⟨rfl, 0, by rw [if_pos rfl]; rfl, fun _ => Or.inl rfl⟩
    · rw [List.getElem?_eq_none (by simp [Spec.writes, hc]; omega)] at hl
      cases hl
  | @erase log n h ih =>
    intro l ph p hl hm
    have hc := h.count
    have hs := h.space hB hd
    rw [writes_append] at hl
    simp only [Spec.writes, List.append_nil] at hl
    have hln : l < n := by
      rcases Nat.lt_or_ge l n with h0 | h0
      · exact h0
      · rw [List.getElem?_eq_none (by omega)] at hl; cases hl
    obtain ⟨e1, k, e2, e3⟩ := ih l ph p hl hm
    refine ⟨e1, ?_⟩
    have hi : Spec.image fx (log ++ [Ev.erase (n % N) (n % N + B)]) ph =
        if n % N ≤ ph ∧ ph < n % N + B then fx (Spec.image fx log ph) else Spec.image fx log ph := by
      unfold Spec.image
      rw [List.foldl_append]
      rfl
    rw [hi]
    by_cases hcov : n % N ≤ ph ∧ ph < n % N + B
    · rw [if_pos hcov]
      refine ⟨k + 1, by rw [e2, Function.iterate_succ_apply'], fun hk => ?_⟩
      exfalso
      obtain ⟨m, hm2⟩ : ∃ m, n = N + m * B := by
        have h1 : B ∣ n := Nat.dvd_of_mod_eq_zero (by simpa using hs.2.2.2)
        obtain ⟨t, ht⟩ := Nat.dvd_sub h1 hd
        exact ⟨t, by rw [Nat.mul_comm]; omega⟩
      rw [hm2] at hcov
      have he := (RingLog.covers hN hB hd m ph).mp hcov
      obtain ⟨b, hb⟩ := hd
      have e3 : N / B = b := by rw [hb, Nat.mul_div_cancel_left _ hB]
      rw [e3, e1, hb, Nat.mod_mul_right_div_self] at he
      have h2 : l / B < m + b := by
        rw [Nat.div_lt_iff_lt_mul hB, Nat.add_mul, Nat.mul_comm b B, ← hb]; omega
      have h3 : m < l / B := by
        rw [Nat.lt_iff_add_one_le, Nat.le_div_iff_mul_le hB, Nat.succ_mul]; omega
      have := mod_inj_window (N := b) (l := m) (m := l / B) (by omega) (by omega) he
      omega
    · rw [if_neg hcov]
      exact ⟨k, e2, fun _ => e3 (by omega)⟩
  | @reopen log n a h ht ih =>
    intro l ph p hl hm
    obtain ⟨e1, k, e2, e3⟩ := ih l ph p hl hm
    refine ⟨e1, k, e2, fun hk => ?_⟩
    rcases h.space_le hB hd with h1 | ⟨h1, h2⟩
    · exact e3 (by omega)
    · exact Or.inr (ht h1 h2)

/-- What the library finds. -/
theorem view (h : LRing N B keep log n a) (hB : 0 < B) (hd : B ∣ N) (hN : 0 < N) (h32 : n + 1 < 2 ^ 32)
    (ht : n % N = 0 → a = B → keep) {fx : Option Page → Option Page}
    (hfx : ∀ p, ∃ q, fx (some p) = some q ∧ (pageId q = pageId p ∨ pageId q = 2 ^ 32 - 1))
    (hk : keep → ∀ p, fx (some p) = some p) : RView N B n (Spec.image fx log) := by
  have H := (h.reopen ht).held hB hd hN fx
  have hc := h.count
  have hiter : ∀ k p, ∃ q, fx^[k] (some p) = some q ∧ (pageId q = pageId p ∨ pageId q = 2 ^ 32 - 1) := by
    intro k p
    induction k with
    | zero => exact ⟨p, rfl, Or.inl rfl⟩
    | succ k ih =>
      obtain ⟨q, q1, q2⟩ := ih
      obtain ⟨r, r1, r2⟩ := hfx q
      refine ⟨r, by rw [Function.iterate_succ_apply', q1, r1], ?_⟩
      rcases r2 with r2 | r2
      · rw [r2]; exact q2
      · exact Or.inr r2
  have hkeep : keep → ∀ k p, fx^[k] (some p) = some p := by
    intro g k p
    induction k with
    | zero => rfl
    | succ k ih => rw [Function.iterate_succ_apply', ih, hk g]
  have hat : ∀ l, l < n → ∃ ph p, (Spec.writes log)[l]? = some (ph, p) ∧ pageId p = l := by
    intro l hl
    obtain ⟨⟨ph, p⟩, hx⟩ : ∃ x, (Spec.writes log)[l]? = some x := ⟨_, List.getElem?_eq_getElem (by omega)⟩
    refine ⟨ph, p, hx, ?_⟩
    rw [h.ids l ph p hx, Nat.mod_eq_of_lt (by omega)]
  refine ⟨?_, ?_, fun j hj hn => h.rest hB hd fx hn j hj⟩
  · intro l hl hm
    obtain ⟨ph, p, h1, h2⟩ := hat l hl
    obtain ⟨e1, k, e2, -⟩ := H l ph p h1 hm
    obtain ⟨q, q1, q2⟩ := hiter k p
    exact ⟨q, by rw [← e1, e2, q1], by rw [h2] at q2; exact q2⟩
  · intro l hl hm
    have hs := h.space hB hd
    have hml := Nat.mod_lt n hB
    have hf : n + foundSpace N B n ≤ l + N := by
      obtain ⟨b1, b2, b3⟩ := base_facts hN (show 0 < n by omega)
      unfold foundSpace
      by_cases h1 : n ≤ N
      · rw [if_pos h1]; omega
      · rw [if_neg h1]
        by_cases h2 : n % N = 0
        · rw [if_pos h2]
          rcases hm with hm | hm <;> omega
        · rw [if_neg h2]
          rcases hm with hm | hm
          · generalize (n - 1) / N * N = b at hm b1 b2 b3
            have hne : n ≠ b + N := by
              intro he
              rw [he, Nat.add_mod_right] at h2
              exact h2 (Nat.mod_eq_zero_of_dvd b1)
            have h3 : B ∣ b + N - n + n % B := by
              have h4 : B ∣ b + N := Nat.dvd_add (hd.trans b1) hd
              have h5 : B ∣ n - n % B := Nat.dvd_sub_mod n
              have h6 := Nat.dvd_sub h4 h5
              have h7 := Nat.mod_le n B
              rwa [show b + N - (n - n % B) = b + N - n + n % B by omega] at h6
            have := Nat.le_of_dvd (by omega) h3
            omega
          · omega
    obtain ⟨ph, p, h1, h2⟩ := hat l hl
    obtain ⟨e1, k, e2, e3⟩ := H l ph p h1 (by omega)
    refine ⟨p, ?_, h2⟩
    rw [← e1, e2]
    rcases e3 hf with rfl | hg
    · rfl
    · exact hkeep hg k p

/-- The counters the library finds continue the ring. -/
theorem resumes (h : LRing N B keep log n a) (hB : 0 < B) (hd : B ∣ N) (hN : 0 < N) {fx : Option Page → Option Page}
    (hk : keep → ∀ p, fx (some p) = some p) : Spec.Resumes N B log (Spec.image fx log) n a where
  goesOn := h.count.symm
  filled := (h.space hB hd).1
  block := Nat.dvd_of_mod_eq_zero (h.space hB hd).2.2.2
  spare := by
    have := h.space hB hd
    rcases Nat.lt_or_ge n N with h1 | h1
    · exact Or.inl (this.2.1 h1)
    · exact Or.inr (this.2.2.1 h1)
  held := by
    intro l ph p hl hm
    obtain ⟨e1, k, e2, e3⟩ := h.held hB hd hN fx l ph p hl (by omega)
    refine ⟨e1, ?_⟩
    rw [e2]
    rcases e3 hm with rfl | hg
    · rfl
    · clear e2 e3
      induction k with
      | zero => rfl
      | succ k ih => rw [Function.iterate_succ_apply', ih, hk hg]

end LRing

end EDB
