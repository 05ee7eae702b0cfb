import Verif.Spec.Wear
import Verif.Props.Storage
import Verif.Props.Recovery

/-!
# C60: storage pages wear evenly
-/

namespace EDB

open Spec (Log Op Out)

/-! ### Counting residues -/

/-- How many of the first `n` numbers are `i` modulo `N`. -/
theorem count_mod {N i : Nat} (hi : i < N) : ∀ n, (List.range n).countP (fun l => decide (l % N = i)) = (n + (N - 1 - i)) / N := by
  intro n
  induction n with
  | zero =>
    rw [Nat.div_eq_of_lt (by omega)]; rfl
  | succ n ih =>
    rw [List.range_succ, List.countP_append, ih, show n + 1 + (N - 1 - i) = (n + (N - 1 - i)) + 1 by omega, Nat.succ_div]
    congr 1
    have e1 := Nat.div_add_mod n N
    have e2 := Nat.mod_lt n (show 0 < N by omega)
    by_cases h : n % N = i
    · have hd : N ∣ n + (N - 1 - i) + 1 := ⟨n / N + 1, by rw [Nat.mul_add, Nat.mul_one]; omega⟩
      rw [if_pos hd]
      simp [h]
    · have hd : ¬ N ∣ n + (N - 1 - i) + 1 := by
        intro hd
        have h3 := Nat.mod_eq_zero_of_dvd hd
        rw [show n + (N - 1 - i) + 1 = (n % N + (N - i)) + N * (n / N) by omega, Nat.add_mul_mod_self_left] at h3
        rcases Nat.lt_or_ge (n % N) i with h4 | h4
        · rw [Nat.mod_eq_of_lt (by omega)] at h3; omega
        · rw [Nat.mod_eq_sub_mod (by omega), Nat.mod_eq_of_lt (by omega)] at h3; omega
      rw [if_neg hd]
      simp [h]

theorem even_mod (N n : Nat) : Spec.Even N fun i => (List.range n).countP (fun l => decide (l % N = i)) := by
  intro i j hi hj
  simp only
  rw [count_mod hi, count_mod hj, ← Nat.add_div_right _ (show 0 < N by omega)]
  exact Nat.div_le_div_right (by omega)

/-- Writes to consecutive pages around a ring. -/
theorem timesWritten_ring {N : Nat} {log : List Ev}
    (h : (Spec.writes log).map Prod.fst = (List.range (Spec.writes log).length).map (· % N)) (i : Nat) :
    Spec.timesWritten log i = (List.range (Spec.writes log).length).countP (fun l => decide (l % N = i)) := by
  have e : ∀ l : List (Nat × Page), l.countP (fun w => decide (w.1 = i)) = (l.map Prod.fst).countP (fun p => decide (p = i)) := by
    intro l; rw [List.countP_map]; rfl
  unfold Spec.timesWritten
  rw [e, h, List.countP_map]
  rfl

section
variable {c : Cfg} {K : Nat}

theorem GoodLog.ring {log : List Ev} (h : GoodLog c log) :
    (Spec.writes log).map Prod.fst = (List.range (Spec.writes log).length).map (· % c.N) := by
  induction h with
  | nil => rfl
  | write h p hid hc ih =>
    rw [writes_append]
    simp only [Spec.writes, List.map_append, List.length_append, List.length_cons, List.length_nil, List.range_succ, ih,
      List.map_cons, List.map_nil, Nat.zero_add]
  | erase h h1 h2 ih =>
    rw [writes_append]
    simpa [Spec.writes] using ih

/-! ### Erases -/

theorem timesErased_append (l m : List Ev) (ph : Nat) :
    Spec.timesErased (l ++ m) ph = Spec.timesErased l ph + Spec.timesErased m ph := by
  unfold Spec.timesErased; rw [List.countP_append]

/-- The blocks are erased one after the other, around the file. -/
structure Swept (c : Cfg) (d : Data) : Prop where
  kept : Kept c d
  erased : ∀ ph, ph < c.N → Spec.timesErased d.dev.log ph =
    (List.range (d.min / c.B)).countP (fun l => decide (l % (c.N / c.B) = ph / c.B))

theorem Swept.congr {d d' : Data} (I : Swept c d) (E : SameButCache d d') : Swept c d' :=
  ⟨I.kept.congr E, by rw [E.dev, E.min]; exact I.erased⟩

theorem Swept.sealed (hok : c.Ok K) {d : Data} (I : Swept c d) : Swept c (EDB.sealed c d) := by
  refine ⟨I.kept.sealed hok, ?_⟩
  intro ph hph
  have hB0 := hok.B0
  have hlog : (EDB.sealed c d).dev.log = d.dev.log ++ (if d.avail = 0 then [Ev.erase (d.next % c.N) (d.next % c.N + c.B)] else []) ++
      [Ev.write (d.next % c.N) (outPage d)] := rfl
  have hmin : (EDB.sealed c d).min = outMin c d := rfl
  rw [hlog, hmin, timesErased_append, timesErased_append, I.erased ph hph]
  have hw : Spec.timesErased [Ev.write (d.next % c.N) (outPage d)] ph = 0 := rfl
  rw [hw, Nat.add_zero]
  unfold outMin
  by_cases ha : d.avail = 0
  · rw [if_pos ha, if_pos ha]
    obtain ⟨m, hm⟩ := I.kept.room.dvd
    obtain ⟨b, hb⟩ := hok.dvd
    have hs := I.kept.room.sum
    have e1 : (d.min + c.B) / c.B = d.min / c.B + 1 := Nat.add_div_right _ hB0
    have e2 : d.min / c.B = m := by rw [hm, Nat.mul_div_cancel_left _ hB0]
    have e3 : c.N / c.B = b := by rw [hb, Nat.mul_div_cancel_left _ hB0]
    have e4 : d.next % c.N = c.B * (m % b) := by
      rw [show d.next = d.min + c.N by omega, Nat.add_mod_right, hm, hb, Nat.mul_mod_mul_left]
    rw [e1, e2, List.range_succ, List.countP_append, e3, e4]
    congr 1
    unfold Spec.timesErased
    simp only [List.countP_cons, List.countP_nil, Nat.zero_add, decide_eq_true_eq]
    have key : (c.B * (m % b) ≤ ph ∧ ph < c.B * (m % b) + c.B) ↔ m % b = ph / c.B := by
      constructor
      · rintro ⟨h1, h2⟩
        symm
        rw [Nat.div_eq_iff hB0, Nat.mul_comm]
        exact ⟨h1, by omega⟩
      · intro h
        have := Nat.div_add_mod ph c.B
        have := Nat.mod_lt ph hB0
        rw [h]
        omega
    rw [if_congr key rfl rfl]
  · rw [if_neg ha, if_neg ha]
    rfl

theorem Swept.step (hok : c.Ok K) {d d' : Data} {x x' : Idx} {op : Op} {o : Out} (I : Swept c d)
    (e : EDB.step c d x op = .ok (d', x', o)) : Swept c d' := by
  cases op with
  | put k v =>
    simp only [EDB.step] at e
    rw [putD_eq hok] at e
    split_ifs at e
    · cases e
      have I' := I.congr (orderCheck_same (c := c) d k)
      refine ⟨I'.kept.accepted hok k v 0, ?_⟩
      unfold accepted
      simp only
      split_ifs
      · exact (I'.sealed hok).erased
      · exact I'.erased
    · cases e
      exact I.congr (orderCheck_same d k)
  | flush =>
    simp only [EDB.step] at e
    rw [flushD_eq hok.io hok.spline] at e
    split_ifs at e
    · cases e; exact I
    · cases e; exact I.sealed hok
  | get k =>
    simp only [EDB.step] at e
    obtain ⟨⟨d1, r, out⟩, h1, e⟩ := Res.bind_eq_ok e
    cases e
    exact I.congr (get_same h1)
  | scan q =>
    simp only [EDB.step] at e
    obtain ⟨⟨d1, x1, rs⟩, h1, e⟩ := Res.bind_eq_ok e
    cases e
    exact I.congr (scanAll_same h1)

end

/-! ## C60 -/

/-- C60 for tables started on a new file.  For every history of operations with whatever keys and data: the pages of the
file are written evenly, they are erased evenly, and no page is erased more often than it was written. -/
theorem C60_even_wear (c : Cfg) (K : Nat) (ops : List Op) (rb : Page) (sm : Nat → Nat × Nat) (x x' : Idx) (d : Data)
    (hok : c.Ok K) (h : runOps c (Data.fresh c rb sm) x ops = .ok (d, x')) :
    Spec.Even c.N (Spec.timesWritten d.dev.log) ∧ Spec.Even c.N (Spec.timesErased d.dev.log) ∧
      ∀ ph, ph < c.N → Spec.timesErased d.dev.log ph ≤ Spec.timesWritten d.dev.log ph := by
  have I : Swept c d := runOps_induct (I := Swept c) (Q := fun _ => True)
    (fun _ _ _ _ _ _ I _ e => I.step hok e) ops _ _ _ _
    ⟨Kept.fresh hok rb sm, fun ph _ => by simp [Data.fresh, Spec.timesErased]⟩ (by simp) h
  have hB0 := hok.B0
  obtain ⟨b, hb⟩ := hok.dvd
  obtain ⟨m, hm⟩ := I.kept.room.dvd
  have e2 : d.min / c.B = m := by rw [hm, Nat.mul_div_cancel_left _ hB0]
  have e3 : c.N / c.B = b := by rw [hb, Nat.mul_div_cancel_left _ hB0]
  have ring : (Spec.writes d.dev.log).map Prod.fst = (List.range (Spec.writes d.dev.log).length).map (· % c.N) := by
    apply List.ext_getElem
    · simp
    · intro i h1 h2
      simp only [List.length_map, List.length_range] at h1 h2
      obtain ⟨p, hp, -⟩ := I.kept.place i (by rw [← I.kept.count]; exact h1)
      rw [List.getElem?_eq_getElem h1, Option.some.injEq] at hp
      simp [hp]
  have hwr := timesWritten_ring ring
  have hblock : ∀ ph, ph < c.N → ph / c.B < c.N / c.B := by
    intro ph hph
    rw [e3, Nat.div_lt_iff_lt_mul hB0, Nat.mul_comm, ← hb]; exact hph
  refine ⟨?_, ?_, ?_⟩
  · intro i j hi hj
    rw [hwr, hwr]
    exact even_mod c.N _ i j hi hj
  · intro i j hi hj
    rw [I.erased i hi, I.erased j hj]
    exact even_mod (c.N / c.B) _ _ _ (hblock i hi) (hblock j hj)
  · intro ph hph
    rw [I.erased ph hph, hwr, count_mod (hblock ph hph), count_mod hph, e2, e3, I.kept.count]
    -- every erased block had been written
    have hml := I.kept.minle
    have hq := hblock ph hph
    rw [e3] at hq
    have hb0 : 0 < b := lt_of_le_of_lt (Nat.zero_le _) hq
    have hN0 := hok.N0
    rw [Nat.le_div_iff_mul_le hN0]
    have h1 := Nat.div_mul_le_self (m + (b - 1 - ph / c.B)) b
    have h2 : (m + (b - 1 - ph / c.B)) / b * c.N ≤ c.B * (m + (b - 1 - ph / c.B)) := by
      calc (m + (b - 1 - ph / c.B)) / b * c.N = c.B * ((m + (b - 1 - ph / c.B)) / b * b) := by rw [hb]; ring
        _ ≤ _ := Nat.mul_le_mul_left _ h1
    have h3 : c.B * (m + (b - 1 - ph / c.B)) + c.B * (ph / c.B + 1) = d.min + c.N := by
      rw [← Nat.mul_add, show m + (b - 1 - ph / c.B) + (ph / c.B + 1) = m + b by omega, Nat.mul_add, ← hm, ← hb]
    have h4 := Nat.div_add_mod ph c.B
    have h5 := Nat.mod_lt ph hB0
    rw [Nat.mul_add c.B (ph / c.B) 1, Nat.mul_one] at h3
    omega

/-- C60 for whole lives (`_partial`: `Durable` configurations, ascending keys; writes only, because a block may be erased once more
after each power failure).  Whatever happened to a data file, however often power failed: its pages were written evenly. -/
theorem C60_life_partial {c : Cfg} {lo K P : Nat} (D : Durable c lo K P) {d : Data} {L : Log} (h : Life c lo K P d L) :
    Spec.Even c.N (Spec.timesWritten d.dev.log) := by
  have h32 : P ≤ 2 ^ 32 := by have := D.bounds.pages; omega
  obtain ⟨J, -⟩ := h.ok D.ok D.bounds h32 D.recs127 D.file32 D.eraser D.spline D.pos
  intro i j hi hj
  rw [timesWritten_ring J.good.ring, timesWritten_ring J.good.ring]
  exact even_mod c.N _ i j hi hj

/-- Twelve inserts and a flush on a file of four pages: two pages were written twice and erased once. -/
example : demo.Ok 1000 ∧ ((runOps demo demo0 noIdx (demoPuts ++ [Op.flush])).check fun (d, _) =>
    (List.range 4).map (Spec.timesWritten d.dev.log) = [2, 2, 1, 1] ∧
    (List.range 4).map (Spec.timesErased d.dev.log) = [1, 1, 0, 0]) = true :=
  ⟨demo_ok _, by decide +kernel⟩

/-- `Even` is not trivial. -/
example (p : Page) : ¬ Spec.Even 2 (Spec.timesWritten [.write 0 p, .erase 0 1, .write 0 p]) := by
  intro h
  have := h 0 1 (by decide) (by decide)
  simp [Spec.timesWritten, Spec.writes] at this

/-- A life to which `C60_life_partial` applies. -/
example : Durable demo 0 1000 100 ∧ ∃ d, Life demo 0 1000 100 d (Spec.logAfter 2 Log.empty (history demo demo0 noIdx (demoPuts ++ [Op.flush]))) := by
  obtain ⟨d, x', h1, h2⟩ := demo_life
  exact ⟨demo_durable 100 (by decide) (by decide), d, h1⟩

end EDB
