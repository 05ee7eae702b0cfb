import Verif.Spec.Ring
import Verif.Props.Wear

/-!
# Files used as rings

`RingLog N B log n m`: the operations of a file of `N` pages to which `n` pages were written, one after the other around
the file, and in which `m` blocks of `B` pages were erased, each exactly when the file was full.
-/

namespace EDB

inductive RingLog (N B : Nat) : List Ev → Nat → Nat → Prop where
  | nil : RingLog N B [] 0 0
  | write {log n m} (h : RingLog N B log n m) (hn : n < N + m * B) (p : Page) :
      RingLog N B (log ++ [.write (n % N) p]) (n + 1) m
  | erase {log n m} (h : RingLog N B log n m) (hn : n = N + m * B) :
      RingLog N B (log ++ [.erase (n % N) (n % N + B)]) n (m + 1)

namespace RingLog

variable {N B n m : Nat} {log : List Ev}

theorem count (h : RingLog N B log n m) : (Spec.writes log).length = n := by
  induction h with
  | nil => rfl
  | write h hn p ih => rw [writes_append, List.length_append, ih]; rfl
  | erase h hn ih => rw [writes_append, List.length_append, ih]; rfl

theorem ring (h : RingLog N B log n m) :
    (Spec.writes log).map Prod.fst = (List.range (Spec.writes log).length).map (· % N) := by
  induction h with
  | nil => rfl
  | write h hn p ih =>
    rw [writes_append]
    simp only [Spec.writes, List.map_append, List.length_append, List.length_cons, List.length_nil, List.range_succ, ih,
      List.map_cons, List.map_nil, Nat.zero_add, h.count]
  | erase h hn ih =>
    rw [writes_append]
    simpa [Spec.writes] using ih

/-- Erases are not ahead of the writes. -/
theorem late (h : RingLog N B log n m) : n ≤ N + m * B ∧ (m = 0 ∨ N + m * B ≤ n + B) := by
  induction h with
  | nil => omega
  | write h hn p ih => omega
  | @erase log n m h hn ih => rw [Nat.succ_mul]; omega

theorem inside (h : RingLog N B log n m) (hN : 0 < N) : ∀ ph p, Ev.write ph p ∈ log → ph < N := by
  induction h with
  | nil => intro ph p h; cases h
  | write h hn p ih =>
    intro ph q hm
    rcases List.mem_append.mp hm with hm | hm
    · exact ih ph q hm
    · simp only [List.mem_singleton, Ev.write.injEq] at hm
      rw [hm.1]; exact Nat.mod_lt _ hN
  | erase h hn ih =>
    intro ph q hm
    rcases List.mem_append.mp hm with hm | hm
    · exact ih ph q hm
    · simp at hm

/-- Where the `m`-th erase begins. -/
theorem start (hN : 0 < N) (hd : B ∣ N) (m : Nat) : ∃ b, N = B * b ∧ 0 < b ∧ (N + m * B) % N = B * (m % b) := by
  obtain ⟨b, hb⟩ := hd
  refine ⟨b, hb, ?_, ?_⟩
  · rcases Nat.eq_zero_or_pos b with h | h
    · rw [h] at hb; omega
    · exact h
  · rw [Nat.add_mod_left, Nat.mul_comm m B, hb, Nat.mul_mod_mul_left]

theorem blocks (h : RingLog N B log n m) (hN : 0 < N) (hd : B ∣ N) :
    ∀ lo hi, Ev.erase lo hi ∈ log → B ∣ lo ∧ hi = lo + B ∧ hi ≤ N := by
  induction h with
  | nil => intro lo hi h; cases h
  | write h hn p ih =>
    intro lo hi hm
    rcases List.mem_append.mp hm with hm | hm
    · exact ih lo hi hm
    · simp at hm
  | @erase log n m h hn ih =>
    intro lo hi hm
    rcases List.mem_append.mp hm with hm | hm
    · exact ih lo hi hm
    · simp only [List.mem_singleton, Ev.erase.injEq] at hm
      obtain ⟨b, e1, b0, e2⟩ := start hN hd m
      obtain ⟨rfl, rfl⟩ := hm
      rw [hn, e2]
      refine ⟨Dvd.intro _ rfl, rfl, ?_⟩
      have := Nat.mul_le_mul_left B (Nat.mod_lt m b0)
      rw [Nat.mul_succ] at this
      omega

/-- Which pages have been erased by the `m`-th erase. -/
theorem covers (hN : 0 < N) (hB : 0 < B) (hd : B ∣ N) (m ph : Nat) :
    ((N + m * B) % N ≤ ph ∧ ph < (N + m * B) % N + B) ↔ m % (N / B) = ph / B := by
  obtain ⟨b, e1, b0, e2⟩ := start hN hd m
  have e3 : N / B = b := by rw [e1, Nat.mul_div_cancel_left _ hB]
  rw [e2, e3]
  constructor
  · rintro ⟨h1, h2⟩
    symm
    rw [Nat.div_eq_iff hB, Nat.mul_comm]
    exact ⟨h1, by omega⟩
  · intro h
    have := Nat.div_add_mod ph B
    have := Nat.mod_lt ph hB
    rw [h]
    omega

theorem erases (h : RingLog N B log n m) (hN : 0 < N) (hB : 0 < B) (hd : B ∣ N) (ph : Nat) :
    Spec.timesErased log ph = (List.range m).countP (fun l => decide (l % (N / B) = ph / B)) := by
  induction h with
  | nil => rfl
  | write h hn p ih => rw [timesErased_append, ih]; rfl
  | @erase log n m h hn ih =>
    rw [timesErased_append, ih, List.range_succ, List.countP_append]
    congr 1
    unfold Spec.timesErased
    simp only [List.countP_cons, List.countP_nil, Nat.zero_add, decide_eq_true_eq]
    rw [hn, if_congr (covers hN hB hd m ph) rfl rfl]

/-- A page written and not erased since is one of the pages still in the ring. -/
theorem dirty (h : RingLog N B log n m) (hN : 0 < N) (hB : 0 < B) (hd : B ∣ N) :
    ∀ i, dirtyAfter (fun _ => False) log i → ∃ l, m * B ≤ l ∧ l < n ∧ l % N = i := by
  induction h with
  | nil => intro i h; exact h.elim
  | @write log n m h hn p ih =>
    intro i hi
    rw [dirtyAfter_append] at hi
    rcases hi with hi | hi
    · exact ⟨n, by have := h.late; rcases this.2 with h0 | h0 <;> [(rw [h0]; omega); (have := Nat.le_of_dvd hN hd; omega)], by omega, hi.symm⟩
    · obtain ⟨l, h1, h2, h3⟩ := ih i hi
      exact ⟨l, h1, by omega, h3⟩
  | @erase log n m h hn ih =>
    intro i hi
    rw [dirtyAfter_append] at hi
    obtain ⟨l, h1, h2, h3⟩ := ih i hi.1
    refine ⟨l, ?_, h2, h3⟩
    by_contra hlt
    apply hi.2
    rw [Nat.succ_mul] at hlt
    rw [hn]
    apply (covers hN hB hd m i).mpr
    have e : l / B = m := by rw [Nat.div_eq_iff hB]; omega
    obtain ⟨b, hb⟩ := hd
    have e3 : N / B = b := by rw [hb, Nat.mul_div_cancel_left _ hB]
    rw [e3, ← h3, ← e, hb, Nat.mod_mul_right_div_self]

/-- The page written next is clean. -/
theorem fresh (h : RingLog N B log n m) (hN : 0 < N) (hB : 0 < B) (hd : B ∣ N) (hn : n < N + m * B) :
    ¬ dirtyAfter (fun _ => False) log (n % N) := by
  intro hi
  obtain ⟨l, h1, h2, h3⟩ := h.dirty hN hB hd _ hi
  have := mod_inj_window (show l < n + N by omega) (by omega) h3
  omega

theorem erased (h : RingLog N B log n m) (hN : 0 < N) (hB : 0 < B) (hd : B ∣ N) :
    Spec.ErasedFirst (fun _ => False) log := by
  induction h with
  | nil => trivial
  | write h hn p ih =>
    rw [erasedFirst_append]
    exact ⟨ih, h.fresh hN hB hd hn, trivial⟩
  | erase h hn ih =>
    rw [erasedFirst_append]
    exact ⟨ih, trivial⟩

/-- Pages not erased since are what the file holds. -/
theorem kept (h : RingLog N B log n m) (hN : 0 < N) (hB : 0 < B) (hd : B ∣ N) (fx : Option Page → Option Page) :
    ∀ l ph p, (Spec.writes log)[l]? = some (ph, p) → m * B ≤ l → ph = l % N ∧ Spec.image fx log ph = some p := by
  induction h with
  | nil => intro l ph p h; simp [Spec.writes] at h
  | @write log n m h hn q ih =>
    intro l ph p hl hm
    have hc := h.count
    rw [writes_append] at hl
    have hi : Spec.image fx (log ++ [Ev.write (n % N) q]) ph = if ph = n % N then some q else Spec.image fx log ph := by
      unfold Spec.image
      rw [List.foldl_append]
      rfl
    rw [hi]
    rcases Nat.lt_trichotomy l n with hlt | rfl | hgt
    · rw [List.getElem?_append_left (by omega)] at hl
      obtain ⟨e1, e2⟩ := ih l ph p hl hm
      refine ⟨e1, ?_⟩
      rw [if_neg, e2]
      intro he
      have := mod_inj_window (N := N) (l := l) (m := n) (by omega) (by omega) (by rw [← e1, he])
      omega
    · rw [List.getElem?_append_right (by omega), hc, Nat.sub_self] at hl
      simp only [Spec.writes, List.getElem?_cons_zero, Option.some.injEq, Prod.mk.injEq] at hl
      obtain ⟨rfl, rfl⟩ := hl
      exact ⟨rfl, by rw [if_pos rfl]⟩
    · rw [List.getElem?_eq_none (by simp [Spec.writes, hc]; omega)] at hl
      cases hl
  | @erase log n m h hn ih =>
    intro l ph p hl hm
    rw [writes_append] at hl
    simp only [Spec.writes, List.append_nil] at hl
    rw [Nat.succ_mul] at hm
    have hc := h.count
    obtain ⟨e1, e2⟩ := ih l ph p hl (by omega)
    refine ⟨e1, ?_⟩
    have hi : Spec.image fx (log ++ [Ev.erase (n % N) (n % N + B)]) ph =
        if n % N ≤ ph ∧ ph < n % N + B then fx (Spec.image fx log ph) else Spec.image fx log ph := by
      unfold Spec.image
      rw [List.foldl_append]
      rfl
    rw [hi, if_neg, e2]
    rw [hn, covers hN hB hd]
    intro he
    have hlt : l < n := by
      rcases Nat.lt_or_ge l n with h0 | h0
      · exact h0
      · rw [List.getElem?_eq_none (by omega)] at hl; cases hl
    obtain ⟨b, hb⟩ := hd
    have e3 : N / B = b := by rw [hb, Nat.mul_div_cancel_left _ hB]
    rw [e3, e1, hb, Nat.mod_mul_right_div_self] at he
    have h2 : l / B < m + b := by
      rw [Nat.div_lt_iff_lt_mul hB, Nat.add_mul, Nat.mul_comm b B, ← hb]; omega
    have h3 : m < l / B := by
      rw [Nat.lt_iff_add_one_le, Nat.le_div_iff_mul_le hB, Nat.succ_mul]; omega
    have := mod_inj_window (N := b) (l := m) (m := l / B) (by omega) (by omega) he
    omega

theorem good (h : RingLog N B log n m) (hN : 0 < N) (hB : 0 < B) (hd : B ∣ N) {file : Nat → Option Page}
    {fx : Option Page → Option Page} (hf : file = Spec.image fx log) : Spec.GoodRing N B log file where
  inside := h.inside hN
  blocks := h.blocks hN hd
  erased := h.erased hN hB hd
  evenWrites := by
    intro i j hi hj
    rw [timesWritten_ring h.ring, timesWritten_ring h.ring]
    exact even_mod N _ i j hi hj
  evenErases := by
    have hblock : ∀ ph, ph < N → ph / B < N / B := by
      intro ph hph
      obtain ⟨b, hb⟩ := hd
      rw [hb, Nat.mul_div_cancel_left _ hB, Nat.div_lt_iff_lt_mul hB, Nat.mul_comm, ← hb]; exact hph
    intro i j hi hj
    rw [h.erases hN hB hd, h.erases hN hB hd]
    exact even_mod (N / B) _ _ _ (hblock i hi) (hblock j hj)
  noSpare := by
    intro ph hph
    obtain ⟨b, hb⟩ := hd
    have e3 : N / B = b := by rw [hb, Nat.mul_div_cancel_left _ hB]
    have hq : ph / B < b := by
      rw [Nat.div_lt_iff_lt_mul hB, Nat.mul_comm, ← hb]; exact hph
    rw [h.erases hN hB ⟨b, hb⟩, timesWritten_ring h.ring, count_mod (e3 ▸ hq), count_mod hph, e3, h.count]
    have hml : m * B ≤ n := by
      have h1 := h.late
      have h2 := Nat.le_of_dvd hN ⟨b, hb⟩
      rcases h1.2 with h0 | h0
      · rw [h0]; omega
      · omega
    rw [Nat.le_div_iff_mul_le hN]
    have h1 := Nat.div_mul_le_self (m + (b - 1 - ph / B)) b
    have h2 : (m + (b - 1 - ph / B)) / b * N ≤ B * (m + (b - 1 - ph / B)) := by
      calc (m + (b - 1 - ph / B)) / b * N = B * ((m + (b - 1 - ph / B)) / b * b) := by rw [hb]; ring
        _ ≤ _ := Nat.mul_le_mul_left _ h1
    have h3 : B * (m + (b - 1 - ph / B)) + B * (ph / B + 1) = m * B + N := by
      rw [← Nat.mul_add, show m + (b - 1 - ph / B) + (ph / B + 1) = m + b by omega, Nat.mul_add, ← hb, Nat.mul_comm m B]
    have h4 := Nat.div_add_mod ph B
    have h5 := Nat.mod_lt ph hB
    rw [Nat.mul_add B (ph / B) 1, Nat.mul_one] at h3
    omega
  keeps := by
    intro l ph p hl hk
    rw [h.count] at hk
    rw [hf]
    refine (h.kept hN hB hd fx l ph p hl ?_).2
    have := h.late
    rcases this.2 with h0 | h0
    · rw [h0]; omega
    · omega

end RingLog

/-! ### A ring file and its counters -/

/-- What the library knows of a ring file: the next page and the number of pages that can be written before the next erase. -/
def RingFile (c : Cfg) (N : Nat) (v : Dev) (next avail : Nat) : Prop :=
  v.file = Spec.image c.eraseFx v.log ∧ ∃ m, RingLog N c.B v.log next m ∧ next + avail = N + m * c.B

theorem RingFile.start (c : Cfg) (N : Nat) : RingFile c N { file := fun _ => none, log := [], reqs := 0 } 0 N :=
  ⟨rfl, 0, .nil, by omega⟩

theorem RingFile.good {c : Cfg} {N : Nat} {v : Dev} {n a : Nat} (h : RingFile c N v n a) (hN : 0 < N) (hB : 0 < c.B)
    (hd : c.B ∣ N) : Spec.GoodRing N c.B v.log v.file := by
  obtain ⟨hf, m, h, -⟩ := h
  exact h.good hN hB hd hf

/-- A write request, whether it fails or not. -/
theorem RingFile.write {c : Cfg} {N : Nat} {v : Dev} {n a : Nat} (h : RingFile c N v n a) (ha : a ≠ 0) (p : Page) :
    ((v.write c (n % N) p).2 = true ∧ RingFile c N (v.write c (n % N) p).1 (n + 1) (a - 1)) ∨
      ((v.write c (n % N) p).2 = false ∧ RingFile c N (v.write c (n % N) p).1 n a) := by
  obtain ⟨hf, m, h, hs⟩ := h
  unfold Dev.write
  by_cases hio : c.ioOk v.reqs = true
  · rw [if_pos hio]
    refine Or.inl ⟨rfl, ?_, m, h.write (by omega) p, by omega⟩
    simp only [Spec.image, List.foldl_append, List.foldl_cons, List.foldl_nil]
    rw [hf]; rfl
  · rw [if_neg hio]
    exact Or.inr ⟨rfl, hf, m, h, hs⟩

/-- The erase request of a full file, whether it fails or not. -/
theorem RingFile.erase {c : Cfg} {N : Nat} {v : Dev} {n : Nat} (h : RingFile c N v n 0) :
    ((v.erase c (n % N) (n % N + c.B)).2 = true ∧ RingFile c N (v.erase c (n % N) (n % N + c.B)).1 n (0 + c.B)) ∨
      ((v.erase c (n % N) (n % N + c.B)).2 = false ∧ RingFile c N (v.erase c (n % N) (n % N + c.B)).1 n 0) := by
  obtain ⟨hf, m, h, hs⟩ := h
  unfold Dev.erase
  by_cases hio : c.ioOk v.reqs = true
  · rw [if_pos hio]
    refine Or.inl ⟨rfl, ?_, m + 1, h.erase (by omega), by rw [Nat.succ_mul]; omega⟩
    simp only [Spec.image, List.foldl_append, List.foldl_cons, List.foldl_nil]
    rw [hf]; rfl
  · rw [if_neg hio]
    exact Or.inr ⟨rfl, hf, m, h, hs⟩

end EDB
