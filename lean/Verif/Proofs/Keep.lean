import Verif.Proofs.Core
import Verif.Spec.Device

/-! Helper lemmas: retention and the erase discipline, for histories of arbitrary operations. -/

namespace EDB

open Spec (Log Range Op Out)

/-- Pages written and not erased since, after a history. -/
def dirtyAfter : (Nat → Prop) → List Ev → Nat → Prop
  | D, [] => D
  | D, .write ph _ :: t => dirtyAfter (fun i => i = ph ∨ D i) t
  | D, .erase lo hi :: t => dirtyAfter (fun i => D i ∧ ¬ (lo ≤ i ∧ i < hi)) t

theorem erasedFirst_append : ∀ (l m : List Ev) (D : Nat → Prop),
    Spec.ErasedFirst D (l ++ m) ↔ Spec.ErasedFirst D l ∧ Spec.ErasedFirst (dirtyAfter D l) m := by
  intro l
  induction l with
  | nil => intro m D; simp [Spec.ErasedFirst, dirtyAfter]
  | cons e l ih =>
    intro m D
    cases e with
    | write ph p => simp only [List.cons_append, Spec.ErasedFirst, dirtyAfter, ih, and_assoc]
    | erase lo hi => simp only [List.cons_append, Spec.ErasedFirst, dirtyAfter, ih]

theorem dirtyAfter_append : ∀ (l m : List Ev) (D : Nat → Prop),
    dirtyAfter D (l ++ m) = dirtyAfter (dirtyAfter D l) m := by
  intro l
  induction l with
  | nil => intro m D; rfl
  | cons e l ih =>
    intro m D
    cases e with
    | write ph p => exact ih m _
    | erase lo hi => exact ih m _

theorem writes_append (l m : List Ev) : Spec.writes (l ++ m) = Spec.writes l ++ Spec.writes m := by
  induction l with
  | nil => rfl
  | cons e l ih => cases e <;> simp [Spec.writes, ih]

section
variable {c : Cfg} {K : Nat}

/-- Retention and erase discipline. -/
structure Kept (c : Cfg) (d : Data) : Prop where
  room : Room c d
  minle : d.min ≤ d.next
  tight : d.min = 0 ∨ d.avail < c.B
  count : (Spec.writes d.dev.log).length = d.next
  place : ∀ l, l < d.next → ∃ p, (Spec.writes d.dev.log)[l]? = some (l % c.N, p) ∧
    (d.min ≤ l → d.dev.file (l % c.N) = some p)
  clean : Spec.ErasedFirst (fun _ => False) d.dev.log
  dirty : ∀ i, dirtyAfter (fun _ => False) d.dev.log i → ∃ l, d.min ≤ l ∧ l < d.next ∧ l % c.N = i

theorem Kept.congr {d d' : Data} (I : Kept c d) (E : SameButCache d d') : Kept c d' :=
  ⟨I.room.congr E, by rw [E.min, E.next]; exact I.minle, by rw [E.min, E.avail]; exact I.tight,
    by rw [E.dev, E.next]; exact I.count, by rw [E.dev, E.next, E.min]; exact I.place, by rw [E.dev]; exact I.clean,
    by rw [E.dev, E.min, E.next]; exact I.dirty⟩

theorem Kept.dropped {d : Data} (I : Kept c d) (hB : 0 < c.B) : d.min = Spec.dropped c.N c.B d.next := by
  have hs := I.room.sum
  obtain ⟨m, hm⟩ := I.room.dvd
  unfold Spec.dropped
  rcases I.tight with h | h
  · rw [if_pos (show d.next ≤ c.N by omega)]; exact h
  · rcases Nat.eq_zero_or_pos d.min with h0 | h0
    · rw [if_pos (show d.next ≤ c.N by omega)]; exact h0
    · have hm1 : 1 ≤ m := by
        rcases Nat.eq_zero_or_pos m with h1 | h1
        · rw [h1, Nat.mul_zero] at hm; omega
        · exact h1
      have : c.B * 1 ≤ c.B * m := Nat.mul_le_mul_left _ hm1
      rw [if_neg (show ¬ d.next ≤ c.N by omega)]
      have e : d.next - c.N + c.B - 1 = c.B * m + (c.B - 1 - d.avail) := by omega
      rw [e, Nat.mul_add_div hB, Nat.div_eq_of_lt (show c.B - 1 - d.avail < c.B by omega), Nat.add_zero]
      exact hm

theorem Kept.fresh (hok : c.Ok K) (rb : Page) (sm : Nat → Nat × Nat) : Kept c (Data.fresh c rb sm) where
  room := ⟨dvd_zero _, by simp [Data.fresh, hok.plain]⟩
  minle := le_refl _
  tight := Or.inl rfl
  count := rfl
  place l h := by simp [Data.fresh] at h
  clean := trivial
  dirty i h := by simp [Data.fresh, dirtyAfter] at h

theorem Kept.sealed (hok : c.Ok K) {d : Data} (I : Kept c d) : Kept c (EDB.sealed c d) := by
  have hm := outMin_le hok I.minle I.room
  have hsum := I.room.sum
  have hlog : (EDB.sealed c d).dev.log = d.dev.log ++ (if d.avail = 0 then [Ev.erase (d.next % c.N) (d.next % c.N + c.B)] else []) ++
      [Ev.write (d.next % c.N) (outPage d)] := rfl
  have hw : Spec.writes (EDB.sealed c d).dev.log = Spec.writes d.dev.log ++ [(d.next % c.N, outPage d)] := by
    rw [hlog, writes_append, writes_append]
    split_ifs <;> simp [Spec.writes]
  have hmin : (EDB.sealed c d).min = outMin c d := rfl
  have hnext : (EDB.sealed c d).next = d.next + 1 := rfl
  -- the page about to be written is not dirty once the erase, if any, is done
  have hnew : ∀ l, outMin c d ≤ l → l < d.next → l % c.N ≠ d.next % c.N := by
    intro l h1 h2 h
    have := mod_inj_window (show l < d.next + c.N by omega) (by omega) h
    omega
  have hdirty : ∀ i, dirtyAfter (fun _ => False) (d.dev.log ++ (if d.avail = 0 then [Ev.erase (d.next % c.N) (d.next % c.N + c.B)] else [])) i →
      ∃ l, outMin c d ≤ l ∧ l < d.next ∧ l % c.N = i := by
    intro i hi
    rw [dirtyAfter_append] at hi
    by_cases ha : d.avail = 0
    · rw [if_pos ha] at hi
      simp only [dirtyAfter] at hi
      obtain ⟨l, h1, h2, h3⟩ := I.dirty i hi.1
      refine ⟨l, ?_, h2, h3⟩
      unfold outMin
      rw [if_pos ha]
      by_contra hlt
      apply hi.2
      have e : d.next % c.N = d.min % c.N := by
        have : d.next = d.min + c.N := by omega
        rw [this, Nat.add_mod_right]
      rw [e, ← h3]
      -- l is one of the first B retained pages
      obtain ⟨m, hm'⟩ := I.room.dvd
      obtain ⟨n, hn⟩ := hok.dvd
      have hn0 : 0 < n := by
        rcases Nat.eq_zero_or_pos n with h0 | h0
        · have := hok.N0; rw [h0] at hn; omega
        · exact h0
      obtain ⟨t, ht⟩ : ∃ t, l = d.min + t := ⟨l - d.min, by omega⟩
      have ht2 : t < c.B := by omega
      have em : d.min % c.N = c.B * (m % n) := by rw [hm', hn, Nat.mul_mod_mul_left]
      have hle : c.B * (m % n) + c.B ≤ c.N := by
        have := Nat.mul_le_mul_left c.B (Nat.mod_lt m hn0)
        rw [Nat.mul_succ] at this
        rw [hn]; exact this
      have el : l % c.N = d.min % c.N + t := by
        rw [ht, Nat.add_mod, Nat.mod_eq_of_lt (show t < c.N by omega), Nat.mod_eq_of_lt (by omega)]
      omega
    · rw [if_neg ha] at hi
      simp only [dirtyAfter] at hi
      obtain ⟨l, h1, h2, h3⟩ := I.dirty i hi
      refine ⟨l, ?_, h2, h3⟩
      unfold outMin
      rw [if_neg ha]; exact h1
  refine ⟨I.room.sealed hok.B0, ?_, tight_sealed hok.B0 I.tight, ?_, ?_, ?_, ?_⟩
  · rw [hmin, hnext]; omega
  · rw [hw, hnext, List.length_append, List.length_singleton, I.count]
  · intro l hl
    rw [hnext] at hl
    rw [hw, hmin]
    rcases Nat.lt_or_ge l d.next with h | h
    · obtain ⟨p, h1, h2⟩ := I.place l h
      refine ⟨p, ?_, ?_⟩
      · rw [List.getElem?_append_left (by rw [I.count]; exact h)]; exact h1
      · intro h3
        show (outDev c d).file (l % c.N) = some p
        rw [outDev_keeps hok I.minle I.room h3 h]
        exact h2 (by omega)
    · have : l = d.next := by omega
      subst this
      refine ⟨outPage d, ?_, fun _ => outDev_new⟩
      rw [List.getElem?_append_right (by rw [I.count]), I.count]
      simp
  · rw [hlog, erasedFirst_append, erasedFirst_append]
    refine ⟨⟨I.clean, ?_⟩, ?_, trivial⟩
    · split_ifs <;> simp [Spec.ErasedFirst]
    · intro hd
      obtain ⟨l, h1, h2, h3⟩ := hdirty _ hd
      exact hnew l h1 h2 h3
  · intro i hi
    rw [hlog, dirtyAfter_append] at hi
    rw [hmin, hnext]
    rcases hi with h | h
    · exact ⟨d.next, by omega, by omega, h.symm⟩
    · obtain ⟨l, h1, h2, h3⟩ := hdirty i h
      exact ⟨l, h1, by omega, h3⟩

theorem Kept.accepted (hok : c.Ok K) {d : Data} (I : Kept c d) (key : Nat) (data : List Byte) (loc : Nat) :
    Kept c (EDB.accepted c d key data loc) := by
  have hI : Kept c (if pageCount d.wbuf ≥ c.maxRec then EDB.sealed c d else d) := by
    split_ifs
    · exact I.sealed hok
    · exact I
  exact ⟨⟨hI.room.dvd, hI.room.sum⟩, hI.minle, hI.tight, hI.count, hI.place, hI.clean, hI.dirty⟩

theorem Kept.step (hok : c.Ok K) {d d' : Data} {x x' : Idx} {op : Op} {o : Out} (I : Kept c d)
    (e : EDB.step c d x op = .ok (d', x', o)) : Kept c d' := by
  cases op with
  | put k v =>
    simp only [EDB.step] at e
    rw [putD_eq hok] at e
    split_ifs at e
    · cases e
      exact (I.congr (orderCheck_same d k)).accepted hok k v 0
    · cases e
      exact I.congr (orderCheck_same d k)
  | flush =>
    simp only [EDB.step] at e
    rw [flushD_eq hok.io hok.spline] at e
    split_ifs at e
    · cases e; exact I
    · cases e; exact I.sealed hok
  | get k =>
    simp only [EDB.step] at e
    obtain ⟨⟨d1, r, out⟩, h1, e⟩ := Res.bind_eq_ok e
    cases e
    exact I.congr (get_same h1)
  | scan q =>
    simp only [EDB.step] at e
    obtain ⟨⟨d1, x1, rs⟩, h1, e⟩ := Res.bind_eq_ok e
    cases e
    exact I.congr (scanAll_same h1)

/-- Induction over the operations of a history. -/
theorem runOps_induct {I : Data → Prop} {Q : Op → Prop}
    (hstep : ∀ d d' x x' op o, I d → Q op → EDB.step c d x op = .ok (d', x', o) → I d') :
    ∀ (ops : List Op) (d d' : Data) (x x' : Idx), I d → (∀ op ∈ ops, Q op) → runOps c d x ops = .ok (d', x') → I d' := by
  intro ops
  induction ops with
  | nil =>
    intro d d' x x' h _ e
    simp only [runOps, Res.ok.injEq, Prod.mk.injEq] at e
    rw [← e.1]; exact h
  | cons op ops ih =>
    intro d d' x x' h hQ e
    unfold runOps at e
    obtain ⟨⟨d1, x1, o⟩, h1, e2⟩ := Res.bind_eq_ok e
    exact ih d1 d' x1 x' (hstep _ _ _ _ _ _ h (hQ op (by simp)) h1) (fun op h => hQ op (by simp [h])) e2

end

end EDB
