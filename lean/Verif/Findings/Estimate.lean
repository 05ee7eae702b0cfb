import Verif.Props.Estimate

/-!
# C61: undefined conversions
-/

namespace EDB

open Spec (Op Rnd)

theorem toSigned_ub {b : ℕ} {v : ℚ} (h : (b : ℚ) ≤ v) : toSigned b v = .ub := by
  unfold toSigned; rw [if_neg (not_lt.mpr h)]

theorem slope_single (r : Rnd 24) {c : Cfg} {p : Page} (h : pageCount p ≤ 1) : slopeOf r c p = 1 := by
  unfold slopeOf
  simp only
  rw [if_pos (by split_ifs <;> omega)]

/-- A key far from the only record of a page has no defined estimate. -/
theorem estimate_single (r : Rnd 24) {c : Cfg} {p : Page} (h : pageCount p ≤ 1) {key : Nat}
    (hfar : 2 ^ 15 ≤ subMod (2 ^ 64) key (pageMinKey c p)) : estimateLoc r c p key = .ub := by
  unfold estimateLoc
  simp only
  rw [slope_single r h, if_neg one_ne_zero, div_one]
  apply toSigned_ub
  have h1 : ((2 ^ 15 : ℕ) : ℚ) ≤ (subMod (2 ^ 64) key (pageMinKey c p) : ℕ) := by exact_mod_cast hfar
  have h2 := r.mono _ _ (by positivity) h1
  rw [FloatR.nat r _ (by norm_num)] at h2
  have h3 := r.mono _ _ (by positivity) h2
  rwa [FloatR.nat r _ (by norm_num)] at h3

/-- C61 is false before the first page is written: `embedDBGet` searches the write buffer without comparing the key with the
keys there.  With the record of key 1 in the buffer, the lookups of key 40000 and of key 0 both convert a `float`
beyond the range of `int16_t`, in every rounding mode. -/
theorem C61_false_first_page : ∃ d x, runOps demo demo0 noIdx [.put 1 (dat 7)] = .ok (d, x) ∧
    ∀ r : Rnd 24, getF r demo d 40000 = .ub ∧ getF r demo d 0 = .ub := by
  have h : ((runOps demo demo0 noIdx [.put 1 (dat 7)]).check fun (d, _) =>
      decide (d.next = 0 ∧ pageCount d.wbuf = 1 ∧ pageMinKey demo d.wbuf = 1)) = true := by decide +kernel
  obtain ⟨⟨d, x⟩, e1, h1⟩ := Res.check_ok h
  simp only [decide_eq_true_eq] at h1
  obtain ⟨h2, h3, h4⟩ := h1
  refine ⟨d, x, e1, fun r => ?_⟩
  have key : ∀ k, 2 ^ 15 ≤ subMod (2 ^ 64) k 1 → getF r demo d k = .ub := by
    intro k hk
    unfold getF getW searchBufferW searchNodeF
    rw [if_pos h2, if_neg (by omega), estimate_single r (by omega) (by rw [h4]; exact hk)]
    rfl
  exact ⟨key _ (by decide), key _ (by decide)⟩

/-- The loop of `getMaxError` on a page whose slot 1 is far away. -/
theorem maxErr_far (r : Rnd 24) {c : Cfg} {p : Page} (hcap : 2 ≤ c.maxRec)
    (hfar : 3 * 2 ^ 30 ≤ subMod (keyMod c) (slotKey c p 1) (pageMinKey c p)) :
    maxErrLoop r c p 1 c.maxRec 0 0 = .ub := by
  obtain ⟨n, hn⟩ : ∃ n, c.maxRec = n + 1 + 1 := ⟨c.maxRec - 2, by omega⟩
  rw [hn]
  unfold maxErrLoop
  simp only [one_ne_zero, if_false, div_one]
  have h0 : subMod (keyMod c) (slotKey c p 0) (pageMinKey c p) = 0 := by
    show subMod (keyMod c) (slotKey c p 0) (slotKey c p 0) = 0
    unfold subMod keyMod
    split_ifs <;> omega
  rw [h0]
  simp only [Nat.cast_zero, FloatR.zero, ge_iff_le, le_refl, if_true, sub_self]
  rw [toSigned_ok (by norm_num), Res.ok_bind]
  unfold maxErrLoop
  simp only [one_ne_zero, if_false, div_one]
  have e : r.f (((3 * 2 ^ 30 : ℕ)) : ℚ) = ((3 * 2 ^ 30 : ℕ) : ℚ) := by
    have := r.rep 3 30 (by norm_num) (by norm_num) (by norm_num)
    have h : ((3 * 2 ^ 30 : ℕ) : ℚ) = (3 : ℕ) * 2 ^ (30 : ℤ) := by norm_num
    rw [h]; exact this
  have h1 : ((3 * 2 ^ 30 : ℕ) : ℚ) ≤ (subMod (keyMod c) (slotKey c p 1) (pageMinKey c p) : ℕ) := by exact_mod_cast hfar
  have h2 := r.mono _ _ (by positivity) h1
  rw [e] at h2
  have h3 := r.mono _ _ (by positivity) h2
  rw [e] at h3
  set v := r.f (r.f ((subMod (keyMod c) (slotKey c p 1) (pageMinKey c p) : ℕ) : ℚ)) with hv
  have h4 : r.f ((0 + 1 : ℕ) : ℚ) = 1 := by have := FloatR.nat r 1 (by norm_num); simpa using this
  rw [h4, if_pos (le_trans (by norm_num) h3)]
  have h5 : ((2 ^ 31 : ℕ) : ℚ) ≤ r.f (v - 1) := by
    have e2 : r.f ((2 ^ 31 : ℕ) : ℚ) = ((2 ^ 31 : ℕ) : ℚ) := by
      have := FloatR.pow r 31 (by norm_num) (by norm_num)
      have h : ((2 ^ 31 : ℕ) : ℚ) = 2 ^ (31 : ℤ) := by norm_num
      rw [h]; exact this
    have := r.mono ((2 ^ 31 : ℕ) : ℚ) (v - 1) (by positivity) (by
      have : ((2 ^ 31 : ℕ) : ℚ) + 1 ≤ ((3 * 2 ^ 30 : ℕ) : ℚ) := by norm_num
      linarith)
    rwa [e2] at this
  rw [toSigned_ub h5]
  rfl

/-- Opening a file whose first page is such a page. -/
theorem recover_far (r : Rnd 24) {c : Cfg} {v : Dev} {rb : Page} {sm : Nat → Nat × Nat} {p : Page} (hp : v.file 0 = some p)
    (hval : looksValid c p 0 = true) (hcap : 2 ≤ c.maxRec) (hw : pageCount (initPage c) = 0)
    (hs : pageCount p ≤ 1 ∨ ¬ c.keySize ≤ 4)
    (hfar : 3 * 2 ^ 30 ≤ subMod (keyMod c) (slotKey c p 1) (pageMinKey c p)) :
    recoverPlainF r c (Data.opening c v rb sm) = .ub := by
  have hread : readPage (Data.opening c v rb sm) 0 =
      ({ Data.opening c v rb sm with rbuf := p, buffered := some 0, numReads := (Data.opening c v rb sm).numReads + 1 }, true) := by
    unfold readPage
    have : (Data.opening c v rb sm).dev.file 0 = some p := hp
    rw [if_neg (by simp [Data.opening, Data.fresh]), this]
  have hme : getMaxErr r c p (initPage c) = .ub := by
    unfold getMaxErr
    have : slopeOf r c (if c.keySize ≤ 4 then p else initPage c) = 1 := by
      apply slope_single
      split_ifs with h4
      · rcases hs with h | h
        · exact h
        · exact absurd h4 h
      · omega
    rw [this, maxErr_far r hcap hfar]
    rfl
  unfold recoverPlainF recoverWith probeF
  simp only [hread, if_true, hval]
  have hwb : ({ Data.opening c v rb sm with rbuf := p, buffered := some 0, numReads := (Data.opening c v rb sm).numReads + 1 } : Data).wbuf = initPage c := rfl
  rw [show (Data.opening c v rb sm).wbuf = initPage c from rfl, hme]
  rfl

/-- C61 is false for reopening after a flush: `getMaxError` also looks at the free slots of the flushed page, which
hold what `initBufferPage` put there (zeros, here 0x01010101).  After inserting key 20000000 and flushing, opening the file again converts
about 2^32 - 3156991 to `int32_t`, in every rounding mode. -/
theorem C61_false_reopen : ∃ d x, runOps demo demo0 noIdx [.put 20000000 (dat 7), .flush] = .ok (d, x) ∧
    ∀ (r : Rnd 24) (rb : Page) (sm : Nat → Nat × Nat), recoverPlainF r demo (Data.opening demo d.dev rb sm) = .ub := by
  have h : ((runOps demo demo0 noIdx [.put 20000000 (dat 7), .flush]).check fun (d, _) =>
      match d.dev.file 0 with
      | none => false
      | some p => looksValid demo p 0 && decide (pageCount p ≤ 1 ∧
          3 * 2 ^ 30 ≤ subMod (keyMod demo) (slotKey demo p 1) (pageMinKey demo p))) = true := by decide +kernel
  obtain ⟨⟨d, x⟩, e1, h1⟩ := Res.check_ok h
  refine ⟨d, x, e1, fun r rb sm => ?_⟩
  simp only at h1
  cases hp : d.dev.file 0 with
  | none => rw [hp] at h1; simp at h1
  | some p =>
    rw [hp] at h1
    simp only [Bool.and_eq_true, decide_eq_true_eq] at h1
    exact recover_far r hp h1.1 (by decide) (by decide +kernel) (Or.inl h1.2.1) h1.2.2

/-- The demo configuration with keys of 8 bytes. -/
def longKeys : Cfg := { demo with keySize := 8, pageSize := 30 }

/-- C61 is false for reopening with keys of 8 bytes even when all pages are full: the slope is that of the write buffer, which is
empty then (the source says: `this is incorrect, should be buffer. TODO: fix`).  Keys 1 and 2^40 fill the first page; opening
the file again converts 2^40 - 1 to `int32_t`. -/
theorem C61_false_reopen_long : ∃ d x,
    runOps longKeys (Data.fresh longKeys (fun _ => 0) (fun _ => (0, 0))) noIdx
      [.put 1 (dat 7), .put (2 ^ 40) (dat 8), .put (2 ^ 41) (dat 9)] = .ok (d, x) ∧
    (∃ p, d.dev.file 0 = some p ∧ pageCount p = longKeys.maxRec) ∧
    ∀ (r : Rnd 24) (rb : Page) (sm : Nat → Nat × Nat), recoverPlainF r longKeys (Data.opening longKeys d.dev rb sm) = .ub := by
  have h : ((runOps longKeys (Data.fresh longKeys (fun _ => 0) (fun _ => (0, 0))) noIdx
      [.put 1 (dat 7), .put (2 ^ 40) (dat 8), .put (2 ^ 41) (dat 9)]).check fun (d, _) =>
      match d.dev.file 0 with
      | none => false
      | some p => looksValid longKeys p 0 && decide (pageCount p = longKeys.maxRec ∧
          3 * 2 ^ 30 ≤ subMod (keyMod longKeys) (slotKey longKeys p 1) (pageMinKey longKeys p))) = true := by decide +kernel
  obtain ⟨⟨d, x⟩, e1, h1⟩ := Res.check_ok h
  simp only at h1
  cases hp : d.dev.file 0 with
  | none => rw [hp] at h1; simp at h1
  | some p =>
    rw [hp] at h1
    simp only [Bool.and_eq_true, decide_eq_true_eq] at h1
    exact ⟨d, x, e1, ⟨p, hp, h1.2.1⟩, fun r rb sm =>
      recover_far r hp h1.1 (by decide) (by decide +kernel) (Or.inr (by decide)) h1.2.2⟩

end EDB
