import Verif.Proofs.Aggregate

/-! Helper lemmas: COUNT, SUM, MIN, MAX. -/

namespace EDB

theorem count_feed (g : List (List Byte)) (n : Nat) :
    feed countAgg (.cnt (n % 2 ^ 32)) g = .ok (.cnt ((n + g.length) % 2 ^ 32)) := by
  induction g generalizing n with
  | nil => rfl
  | cons r g ih =>
    show feed countAgg (.cnt ((n % 2 ^ 32 + 1) % 2 ^ 32)) g = _
    rw [Nat.mod_add_mod, ih]
    congr 3
    simp only [List.length_cons]; omega

/-- The bytes of a column, as the functions address them. -/
theorem field_bytes {s : Schema} (h : Spec.width s < 2 ^ 16) (r : List Byte) (k : Nat) (hk : k < s.length) :
    (r.drop (colOffset s k)).take (s.getD k 0).natAbs = (Spec.columns s r).getD k [] := column_eq h r k hk

theorem sum_feed_unsigned {s : Schema} {col : Nat} (hw : Spec.width s < 2 ^ 16) (hc : col < s.length)
    (hs : 0 ≤ s.getD col 0) (h8 : (s.getD col 0).natAbs ≤ 8) (g : List (List Byte)) (v : Nat) :
    feed (sumAgg s col) (.sum (v % 2 ^ 64)) g =
      .ok (.sum ((v + (g.map fun r => Spec.uval ((Spec.columns s r).getD col [])).sum) % 2 ^ 64)) := by
  induction g generalizing v with
  | nil => rfl
  | cons r g ih =>
    have hadd : (sumAgg s col).add (.sum (v % 2 ^ 64)) r
        = .ok (.sum ((v + Spec.uval ((Spec.columns s r).getD col [])) % 2 ^ 64)) := by
      show (if col < s.length then _ else _) = _
      rw [if_pos hc]
      unfold sumAdd
      simp only [Nat.min_eq_left h8, if_neg (show ¬ s.getD col 0 < 0 by omega), field_bytes hw r col hc, Res.ok_bind, Nat.mod_add_mod, uval_eq]
    unfold feed
    rw [hadd]
    simp only [Res.ok_bind]
    rw [ih]
    simp only [List.map_cons, List.sum_cons]
    rw [Nat.add_assoc]

/-- `int64_t` cell holding `z`. -/
def cell (z : Int) : Nat := (z % 2 ^ 64).toNat

theorem asInt64_cell {z : Int} (h : -(2 ^ 63) ≤ z ∧ z < 2 ^ 63) : asInt64 (cell z) = z := by
  unfold asInt64 cell
  split_ifs <;> omega

theorem sum_feed_signed {s : Schema} {col : Nat} (hw : Spec.width s < 2 ^ 16) (hc : col < s.length)
    (hs : s.getD col 0 < 0) (h4 : (s.getD col 0).natAbs ≤ 4) (g : List (List Byte)) (z : Int)
    (hl : ∀ r ∈ g, r.length = Spec.width s)
    (hz : ∀ k ≤ g.length, -(2 ^ 63) ≤ z + ((g.take k).map fun r => Spec.field s r col).sum ∧
      z + ((g.take k).map fun r => Spec.field s r col).sum < 2 ^ 63) :
    feed (sumAgg s col) (.sum (cell z)) g = .ok (.sum (cell (z + (g.map fun r => Spec.field s r col).sum))) := by
  induction g generalizing z with
  | nil => show Res.ok _ = _; simp
  | cons r g ih =>
    have hb : 0 < ((Spec.columns s r).getD col []).length := by
      rw [columns_getD_length s r col hc (hl r (by simp))]; omega
    have hf : Spec.field s r col = leInt ((Spec.columns s r).getD col []) := by
      unfold Spec.field Spec.value
      rw [if_pos hs, leInt_eq _ hb]
    have h0 := hz 0 (by omega)
    have h1 := hz 1 (by simp)
    simp only [List.take_zero, List.map_nil, List.sum_nil, add_zero] at h0
    simp only [List.take_succ_cons, List.take_zero, List.map_cons, List.map_nil, List.sum_cons, List.sum_nil, add_zero] at h1
    have hadd : (sumAgg s col).add (.sum (cell z)) r = .ok (.sum (cell (z + Spec.field s r col))) := by
      show (if col < s.length then _ else _) = _
      rw [if_pos hc]
      unfold sumAdd
      rw [hf] at h1 ⊢
      have hfit : fits 64 (z + leInt ((Spec.columns s r).getD col [])) = true := by
        unfold fits
        simp only [Bool.and_eq_true, decide_eq_true_eq]
        omega
      simp only [Nat.min_eq_left (show (s.getD col 0).natAbs ≤ 8 by omega), if_pos hs, field_bytes hw r col hc,
        if_neg (show ¬ (s.getD col 0).natAbs ≥ 5 by omega), asInt64_cell h0]
      rw [if_pos hfit]
      rfl
    unfold feed
    rw [hadd]
    simp only [Res.ok_bind]
    rw [ih _ (fun r h => hl r (by simp [h]))]
    · simp only [List.map_cons, List.sum_cons]; congr 3; omega
    · intro k hk
      have := hz (k + 1) (by simpa using hk)
      simp only [List.take_succ_cons, List.map_cons, List.sum_cons] at this
      omega

/-! MIN / MAX -/

theorem leNat_replicate_ff (n : Nat) : leNat (List.replicate n 0xff) = 256 ^ n - 1 := by
  induction n with
  | zero => rfl
  | succ n ih =>
    rw [List.replicate_succ]
    simp only [leNat, ih, Nat.pow_succ]
    have : 0 < 256 ^ n := Nat.pow_pos (by omega)
    simp
    omega

theorem leNat_replicate_0 (n : Nat) : leNat (List.replicate n 0) = 0 := by
  induction n with
  | zero => rfl
  | succ n ih => rw [List.replicate_succ]; simp [leNat, ih]

theorem maxOf_length {c : Int} (h : c ≠ 0) : (maxOf c).length = c.natAbs := by
  unfold maxOf; simp; omega

theorem minOf_length {c : Int} (h : c ≠ 0) : (minOf c).length = c.natAbs := by
  unfold minOf; simp; omega

theorem value_eq_leInt {c : Int} (hc : c < 0) (bs : List Byte) (h : bs.length = c.natAbs) : Spec.value c bs = leInt bs := by
  unfold Spec.value; rw [if_pos hc, leInt_eq _ (by omega)]

theorem value_eq_leNat {c : Int} (hc : ¬ c < 0) (bs : List Byte) : Spec.value c bs = leNat bs := by
  unfold Spec.value; rw [if_neg hc, uval_eq]

theorem value_le_maxOf {c : Int} (h0 : c ≠ 0) (bs : List Byte) (h : bs.length = c.natAbs) :
    Spec.value c bs ≤ Spec.value c (maxOf c) := by
  obtain ⟨m, hm⟩ : ∃ m, c.natAbs = m + 1 := ⟨c.natAbs - 1, by omega⟩
  have hlt := leNat_lt bs
  have hp : 0 < 256 ^ m := Nat.pow_pos (by omega)
  rw [h, hm, Nat.pow_succ] at hlt
  by_cases hc : c < 0
  · rw [value_eq_leInt hc bs h, value_eq_leInt hc _ (maxOf_length h0)]
    have hv : leNat (maxOf c) = 256 ^ m - 1 + 256 ^ m * 127 := by
      unfold maxOf
      rw [leNat_append, leNat_replicate_ff, List.length_replicate, hm, if_pos hc]
      simp [leNat]
    have hx : (256 ^ (m + 1) : Int) = ((256 ^ m : Nat) : Int) * 256 := by rw [pow_succ]; push_cast; rfl
    unfold leInt
    rw [maxOf_length h0, h, hm, hv, Nat.pow_succ, hx]
    generalize 256 ^ m = q at *
    generalize leNat bs = x at *
    split_ifs <;> omega
  · rw [value_eq_leNat hc, value_eq_leNat hc]
    have hv : leNat (maxOf c) = 256 ^ m - 1 + 256 ^ m * 255 := by
      unfold maxOf
      rw [leNat_append, leNat_replicate_ff, List.length_replicate, hm, if_neg hc]
      simp [leNat]
    omega

theorem minOf_le_value {c : Int} (h0 : c ≠ 0) (bs : List Byte) (h : bs.length = c.natAbs) :
    Spec.value c (minOf c) ≤ Spec.value c bs := by
  obtain ⟨m, hm⟩ : ∃ m, c.natAbs = m + 1 := ⟨c.natAbs - 1, by omega⟩
  have hlt := leNat_lt bs
  have hp : 0 < 256 ^ m := Nat.pow_pos (by omega)
  rw [h, hm, Nat.pow_succ] at hlt
  by_cases hc : c < 0
  · rw [value_eq_leInt hc bs h, value_eq_leInt hc _ (minOf_length h0)]
    have hv : leNat (minOf c) = 256 ^ m * 128 := by
      unfold minOf
      rw [leNat_append, leNat_replicate_0, List.length_replicate, hm, if_pos hc]
      simp [leNat]
    have hx : (256 ^ (m + 1) : Int) = ((256 ^ m : Nat) : Int) * 256 := by rw [pow_succ]; push_cast; rfl
    unfold leInt
    rw [minOf_length h0, h, hm, hv, Nat.pow_succ, hx]
    generalize 256 ^ m = q at *
    generalize leNat bs = x at *
    split_ifs <;> omega
  · rw [value_eq_leNat hc, value_eq_leNat hc]
    have hv : leNat (minOf c) = 0 := by
      unfold minOf
      rw [leNat_append, leNat_replicate_0, if_neg hc]
      simp [leNat]
    omega

theorem min_feed {s : Schema} {col : Nat} (hw : Spec.width s < 2 ^ 16) (hc : col < s.length)
    (g : List (List Byte)) (cur : List Byte) (hl : ∀ r ∈ g, r.length = Spec.width s)
    (hcur : cur.length = (s.getD col 0).natAbs) :
    ∃ v, feed (minAgg s col) (.mm cur) g = .ok (.mm v) ∧ v.length = (s.getD col 0).natAbs ∧
      Spec.value (s.getD col 0) v ≤ Spec.value (s.getD col 0) cur ∧
      (∀ r ∈ g, Spec.value (s.getD col 0) v ≤ Spec.field s r col) ∧
      (Spec.value (s.getD col 0) v = Spec.value (s.getD col 0) cur ∨ ∃ r ∈ g, Spec.value (s.getD col 0) v = Spec.field s r col) := by
  induction g generalizing cur with
  | nil => exact ⟨cur, rfl, hcur, by simp, by simp, by simp⟩
  | cons r g ih =>
    have hb : ((Spec.columns s r).getD col []).length = (s.getD col 0).natAbs :=
      columns_getD_length s r col hc (hl r (by simp))
    have hcmp := compare_eq ((Spec.columns s r).getD col []) cur .lt (s.getD col 0) (by omega) hcur
    rw [List.take_of_length_le (by omega)] at hcmp
    have hadd : (minAgg s col).add (.mm cur) r = .ok (.mm (if Spec.field s r col < Spec.value (s.getD col 0) cur
        then (Spec.columns s r).getD col [] else cur)) := by
      show (if col < s.length then _ else _) = _
      rw [if_pos hc]
      simp only [field_bytes hw r col hc]
      simp only [Spec.CmpOp.code] at hcmp
      rw [hcmp, show Spec.value (s.getD col 0) ((Spec.columns s r).getD col []) = Spec.field s r col from rfl]
      simp only [Spec.CmpOp.holds, decide_eq_true_eq]
    obtain ⟨v, h1, h2, h3, h4, h5⟩ := ih (if Spec.field s r col < Spec.value (s.getD col 0) cur
        then (Spec.columns s r).getD col [] else cur) (fun r h => hl r (by simp [h])) (by split_ifs <;> assumption)
    have hval : Spec.value (s.getD col 0) (if Spec.field s r col < Spec.value (s.getD col 0) cur
        then (Spec.columns s r).getD col [] else cur) =
        if Spec.field s r col < Spec.value (s.getD col 0) cur then Spec.field s r col else Spec.value (s.getD col 0) cur := by
      split_ifs <;> rfl
    rw [hval] at h3 h5
    refine ⟨v, ?_, h2, ?_, ?_, ?_⟩
    · unfold feed; rw [hadd]; exact h1
    · split_ifs at h3 <;> omega
    · intro r' hr'
      rw [List.mem_cons] at hr'
      rcases hr' with rfl | hr'
      · split_ifs at h3 <;> omega
      · exact h4 r' hr'
    · split_ifs at h5
      · rcases h5 with h5 | ⟨r', hr', h5⟩
        · exact .inr ⟨r, by simp, h5⟩
        · exact .inr ⟨r', by simp [hr'], h5⟩
      · rcases h5 with h5 | ⟨r', hr', h5⟩
        · exact .inl h5
        · exact .inr ⟨r', by simp [hr'], h5⟩

theorem max_feed {s : Schema} {col : Nat} (hw : Spec.width s < 2 ^ 16) (hc : col < s.length)
    (g : List (List Byte)) (cur : List Byte) (hl : ∀ r ∈ g, r.length = Spec.width s)
    (hcur : cur.length = (s.getD col 0).natAbs) :
    ∃ v, feed (maxAgg s col) (.mm cur) g = .ok (.mm v) ∧ v.length = (s.getD col 0).natAbs ∧
      Spec.value (s.getD col 0) cur ≤ Spec.value (s.getD col 0) v ∧
      (∀ r ∈ g, Spec.field s r col ≤ Spec.value (s.getD col 0) v) ∧
      (Spec.value (s.getD col 0) v = Spec.value (s.getD col 0) cur ∨ ∃ r ∈ g, Spec.value (s.getD col 0) v = Spec.field s r col) := by
  induction g generalizing cur with
  | nil => exact ⟨cur, rfl, hcur, by simp, by simp, by simp⟩
  | cons r g ih =>
    have hb : ((Spec.columns s r).getD col []).length = (s.getD col 0).natAbs :=
      columns_getD_length s r col hc (hl r (by simp))
    have hcmp := compare_eq ((Spec.columns s r).getD col []) cur .gt (s.getD col 0) (by omega) hcur
    rw [List.take_of_length_le (by omega)] at hcmp
    have hadd : (maxAgg s col).add (.mm cur) r = .ok (.mm (if Spec.field s r col > Spec.value (s.getD col 0) cur
        then (Spec.columns s r).getD col [] else cur)) := by
      show (if col < s.length then _ else _) = _
      rw [if_pos hc]
      simp only [field_bytes hw r col hc]
      simp only [Spec.CmpOp.code] at hcmp
      rw [hcmp, show Spec.value (s.getD col 0) ((Spec.columns s r).getD col []) = Spec.field s r col from rfl]
      simp only [Spec.CmpOp.holds, decide_eq_true_eq]
    obtain ⟨v, h1, h2, h3, h4, h5⟩ := ih (if Spec.field s r col > Spec.value (s.getD col 0) cur
        then (Spec.columns s r).getD col [] else cur) (fun r h => hl r (by simp [h])) (by split_ifs <;> assumption)
    have hval : Spec.value (s.getD col 0) (if Spec.field s r col > Spec.value (s.getD col 0) cur
        then (Spec.columns s r).getD col [] else cur) =
        if Spec.field s r col > Spec.value (s.getD col 0) cur then Spec.field s r col else Spec.value (s.getD col 0) cur := by
      split_ifs <;> rfl
    rw [hval] at h3 h5
    refine ⟨v, ?_, h2, ?_, ?_, ?_⟩
    · unfold feed; rw [hadd]; exact h1
    · split_ifs at h3 <;> omega
    · intro r' hr'
      rw [List.mem_cons] at hr'
      rcases hr' with rfl | hr'
      · split_ifs at h3 <;> omega
      · exact h4 r' hr'
    · split_ifs at h5
      · rcases h5 with h5 | ⟨r', hr', h5⟩
        · exact .inr ⟨r, by simp, h5⟩
        · exact .inr ⟨r', by simp [hr'], h5⟩
      · rcases h5 with h5 | ⟨r', hr', h5⟩
        · exact .inl h5
        · exact .inr ⟨r', by simp [hr'], h5⟩

/-- AVG keeps the state of SUM and of COUNT. -/
theorem avg_feed {quot : Int → Nat → Nat} {s : Schema} {col : Nat} {size : Int} (hc : col < s.length) :
    ∀ (g : List (List Byte)) (n v w : Nat), feed (sumAgg s col) (.sum v) g = .ok (.sum w) →
      feed (avgAgg quot s col size) (.avg (n % 2 ^ 32) v) g = .ok (.avg ((n + g.length) % 2 ^ 32) w) := by
  intro g
  induction g with
  | nil =>
    intro n v w h
    simp only [feed, Res.ok.injEq, AggState.sum.injEq] at h
    rw [h]; rfl
  | cons r g ih =>
    intro n v w h
    unfold feed at h ⊢
    have h1 : (sumAgg s col).add (.sum v) r = (do let v ← sumAdd s col v r; Res.ok (AggState.sum v)) := by
      show (if col < s.length then _ else _) = _
      rw [if_pos hc]
    rw [h1] at h
    obtain ⟨v', h3, h2⟩ : ∃ v', sumAdd s col v r = .ok v' ∧ feed (sumAgg s col) (.sum v') g = .ok (.sum w) := by
      cases e : sumAdd s col v r with
      | ok v' => rw [e] at h; exact ⟨v', rfl, h⟩
      | ub => rw [e] at h; cases h
      | fuel => rw [e] at h; cases h
    have e : (avgAgg quot s col size).add (.avg (n % 2 ^ 32) v) r = .ok (.avg ((n + 1) % 2 ^ 32) v') := by
      show (if col < s.length then (do let v ← sumAdd s col v r; Res.ok (AggState.avg ((n % 2 ^ 32 + 1) % 2 ^ 32) v)) else .ub) = _
      rw [if_pos hc, h3, Res.ok_bind, Nat.mod_add_mod]
    rw [e, Res.ok_bind, ih (n + 1) v' w h2, List.length_cons]
    congr 3
    omega

end EDB
