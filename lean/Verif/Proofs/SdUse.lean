import Verif.Proofs.VarWithin
import Verif.Proofs.RlcFile

/-!
# Files on an SD card that are written without gaps
-/

namespace EDB

open Spec (PageStore)

/-- A file on a card, initially empty, that was written by the storage operations, with reads of any pages in between (which move the
file position). -/
inductive SdUse (sz : Nat) : List Ev → SdFile → Prop
  | new : SdUse sz [] ⟨[], 0⟩
  | op {log : List Ev} {f : SdFile} (h : SdUse sz log f) (e : Ev) : SdUse sz (log ++ [e]) (sdEv sz f e)
  | read {log : List Ev} {f : SdFile} (h : SdUse sz log f) (buf : List Byte) (i : Nat) : SdUse sz log (sdRead f buf i sz).1

/-- Every page is written inside the file or right behind its end. -/
def NoGaps (sz : Nat) (log : List Ev) : Prop :=
  ∀ k n p, log[k]? = some (Ev.write n p) → sz * n < 2 ^ 32 ∧ sz * n ≤ (desk sz false (log.take k)).length

variable {sz : Nat} {log : List Ev}

theorem NoGaps.snoc {e : Ev} (h : NoGaps sz log)
    (he : ∀ n p, e = .write n p → sz * n < 2 ^ 32 ∧ sz * n ≤ (desk sz false log).length) : NoGaps sz (log ++ [e]) := by
  intro k n p hk
  rcases Nat.lt_trichotomy k log.length with h1 | h1 | h1
  · rw [List.getElem?_append_left h1] at hk
    rw [List.take_append_of_le_length h1.le]
    exact h k n p hk
  · subst h1
    rw [List.getElem?_append_right (Nat.le_refl _), Nat.sub_self] at hk
    rw [List.take_left]
    exact he n p (by simpa using hk)
  · rw [List.getElem?_eq_none (by simp; omega)] at hk
    cases hk

theorem NoGaps.init {e : Ev} (h : NoGaps sz (log ++ [e])) : NoGaps sz log := by
  intro k n p hk
  have h1 : k < log.length := by
    by_contra h1
    rw [List.getElem?_eq_none (by omega)] at hk
    cases hk
  have := h k n p (by rw [List.getElem?_append_left h1]; exact hk)
  rwa [List.take_append_of_le_length h1.le] at this

theorem NoGaps.last {n : Nat} {p : Page} (h : NoGaps sz (log ++ [.write n p])) :
    sz * n < 2 ^ 32 ∧ sz * n ≤ (desk sz false log).length := by
  have := h log.length n p (by simp)
  rwa [List.take_left] at this

theorem NoGaps.take (h : NoGaps sz log) (j : Nat) : NoGaps sz (log.take j) := by
  intro k n p hk
  rw [List.getElem?_take] at hk
  split_ifs at hk with g
  rw [List.take_take, Nat.min_eq_left g.le]
  exact h k n p hk

/-- Then the bytes are those of the desktop interface. -/
theorem SdUse.bytes {f : SdFile} (h : SdUse sz log f) (hg : NoGaps sz log) : f.bytes = desk sz false log := by
  induction h with
  | new => rfl
  | @op log f h e ih =>
    have ih := ih hg.init
    rw [desk_snoc]
    cases e with
    | write n p =>
      obtain ⟨h1, h2⟩ := hg.last
      rw [← ih] at h2
      show (sdWrite f (rd p 0 sz) n sz fun _ => true).1.bytes = fileWrite (desk sz false log) (rd p 0 sz) n sz
      rw [← ih]
      unfold sdWrite SdFile.seek fileWrite byteOff
      rw [Nat.mod_eq_of_lt h1]
      simp only [if_neg (Nat.not_lt.mpr h2), if_pos h2, SdFile.put, if_true]
    | erase lo hi => exact ih
  | @read log f h buf i ih =>
    rw [← ih hg]
    unfold sdRead SdFile.seek SdFile.take
    split_ifs <;> rfl

/-- And every write is reported as carried out. -/
theorem SdUse.writes {f : SdFile} {k n : Nat} {p : Page} (h : SdUse sz (log.take k) f) (hg : NoGaps sz log)
    (hk : log[k]? = some (Ev.write n p)) : (sdWrite f (rd p 0 sz) n sz fun _ => true).2 = 1 := by
  obtain ⟨h1, h2⟩ := hg k n p hk
  rw [← h.bytes (hg.take k)] at h2
  unfold sdWrite SdFile.seek byteOff
  rw [Nat.mod_eq_of_lt h1]
  simp only [if_neg (Nat.not_lt.mpr h2), if_pos h2, if_true]

/-- Reading such a file. -/
theorem PagesHeld.sdRead {s : PageStore} {f : SdFile} {k : Nat} (H : PagesHeld sz f.bytes k s) (h0 : 0 < sz) {n : Nat} (hn : sz * n < 2 ^ 32)
    (hk : n ≤ k) (buf : List Byte) (hb : buf.length = sz) : (sdRead f buf n sz).2 = s.read n buf := by
  rw [← H.read h0 hn buf hb]
  have hk' : sz * n ≤ f.bytes.length := by rw [H.len]; exact Nat.mul_le_mul_left _ hk
  unfold EDB.sdRead fileRead SdFile.seek SdFile.take byteOff
  rw [Nat.mod_eq_of_lt hn]
  simp only [if_pos hk']
  congr 1
  have hl : (pread f.bytes (sz * n) sz).length ≤ sz := by rw [pread_length]; omega
  split_ifs with h
  · rw [h.1, Nat.div_self h0]
  · exact Nat.div_eq_of_lt (by omega)

theorem LRing.noGaps {N B n a : Nat} {keep : Prop} (hN : 0 < N) (h32 : sz * N < 2 ^ 32) (h : LRing N B keep log n a) :
    NoGaps sz log := by
  induction h with
  | nil => intro k n p hk; simp at hk
  | @write log n a h ha p hp ih =>
    refine ih.snoc fun n' p' e => ?_
    cases e
    have hlt := Nat.mod_lt n hN
    refine ⟨lt_of_le_of_lt (Nat.mul_le_mul_left _ hlt.le) h32, ?_⟩
    rw [(h.holds (sz := sz) hN h32).len]
    have := Nat.mod_le n N
    exact Nat.mul_le_mul_left _ (by omega)
  | @erase log n h ih => exact ih.snoc fun _ _ e => by cases e
  | reopen h ht ih => exact ih

theorem GoodLog.noGaps {c : Cfg} (hB : 0 < c.B) (hd : c.B ∣ c.N) (hN : 0 < c.N) (hE : c.eraseFx = id) (h32 : c.pageSize * c.N < 2 ^ 32)
    (h : GoodLog c log) : NoGaps c.pageSize log := by
  induction h with
  | nil => intro k n p hk; simp at hk
  | @write log h p hid hc ih =>
    refine ih.snoc fun n' p' e => ?_
    cases e
    have hlt := Nat.mod_lt (Spec.writes log).length hN
    refine ⟨lt_of_le_of_lt (Nat.mul_le_mul_left _ hlt.le) h32, ?_⟩
    rw [(h.holds hB hd hN (mock := false) hE h32).len]
    have := Nat.mod_le (Spec.writes log).length c.N
    exact Nat.mul_le_mul_left _ (by omega)
  | erase h h1 h2 ih => exact ih.snoc fun _ _ e => by cases e

end EDB
