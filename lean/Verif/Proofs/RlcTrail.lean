import Verif.Proofs.RlcImage
import Verif.Model.RlcLife
import Verif.Proofs.Core

/-! Helper lemmas: sequences of storage operations with record-level consistency. -/

namespace EDB

open Spec (Log KeepsPermanent)

/-- The device after some more operations. -/
def devRun (c : Cfg) (v : Dev) (evs : List Ev) : Dev :=
  { file := evs.foldl (Spec.applyEv c.eraseFx) v.file, log := v.log ++ evs, reqs := v.reqs + evs.length }

theorem devRun_nil (c : Cfg) (v : Dev) : devRun c v [] = v := by simp [devRun]

theorem devRun_append (c : Cfg) (v : Dev) (a b : List Ev) : devRun c (devRun c v a) b = devRun c v (a ++ b) := by
  simp [devRun, Nat.add_assoc]

theorem write_run {c : Cfg} (hio : ∀ n, c.ioOk n = true) (v : Dev) (ph : Nat) (p : Page) :
    v.write c ph p = (devRun c v [.write ph p], true) := by
  unfold Dev.write devRun
  rw [if_pos (hio _)]
  rfl

theorem erase_run {c : Cfg} (hio : ∀ n, c.ioOk n = true) (v : Dev) (lo hi : Nat) :
    v.erase c lo hi = (devRun c v [.erase lo hi], true) := by
  unfold Dev.erase devRun
  rw [if_pos (hio _)]
  rfl

/-- The file holds the records of `L`. -/
def StoredR (c : Cfg) (P : Nat) (L : Log) (file : Nat → Option Page) : Prop :=
  ∃ ps S fr t, RImg c P ps S fr t file ∧ ps.map (recs c) = L.pages ∧ (t.map (recs c)).getD [] = L.buf

/-- A sequence of storage operations in the course of which the file always holds a log that satisfies `R`. -/
inductive Trail (c : Cfg) (P : Nat) (R : Log → Prop) : Log → (Nat → Option Page) → List Ev → Log → (Nat → Option Page) → Prop
  | nil {L : Log} {f : Nat → Option Page} (h : R L) (s : StoredR c P L f) : Trail c P R L f [] L f
  | cons {L L1 L2 : Log} {f f2 : Nat → Option Page} {e : Ev} {t : List Ev} (h : R L) (s : StoredR c P L f)
      (k : ∀ m, KeepsPermanent c.N c.B L1.pages.length m → KeepsPermanent c.N c.B L.pages.length (e :: m))
      (w : ∀ ph q, e = .write ph q → ph < c.N ∧ pageId q < P ∧ Page.within q c.pageSize)
      (T : Trail c P R L1 (Spec.applyEv c.eraseFx f e) t L2 f2) : Trail c P R L f (e :: t) L2 f2

section
variable {c : Cfg} {P : Nat} {R : Log → Prop} {L L1 L2 : Log} {f f1 f2 : Nat → Option Page}

theorem Trail.append {a b : List Ev} (T : Trail c P R L f a L1 f1) (U : Trail c P R L1 f1 b L2 f2) :
    Trail c P R L f (a ++ b) L2 f2 := by
  induction T with
  | nil _ _ => exact U
  | cons h s k w _ ih => exact Trail.cons h s k w (ih U)

theorem Trail.file {a : List Ev} (T : Trail c P R L f a L1 f1) : f1 = a.foldl (Spec.applyEv c.eraseFx) f := by
  induction T with
  | nil _ _ => rfl
  | cons _ _ _ _ _ ih => exact ih

theorem Trail.last {a : List Ev} (T : Trail c P R L f a L1 f1) : R L1 ∧ StoredR c P L1 f1 := by
  induction T with
  | nil h s => exact ⟨h, s⟩
  | cons _ _ _ _ _ ih => exact ih

/-- What is written. -/
theorem Trail.writes {a : List Ev} (T : Trail c P R L f a L1 f1) :
    ∀ ph q, Ev.write ph q ∈ a → ph < c.N ∧ pageId q < P ∧ Page.within q c.pageSize := by
  induction T with
  | nil h s => intro ph q h; cases h
  | cons _ _ _ w _ ih =>
    intro ph q h
    rcases List.mem_cons.mp h with h | h
    · exact w ph q h.symm
    · exact ih ph q h

theorem Trail.mono {R' : Log → Prop} {a : List Ev} (T : Trail c P R L f a L1 f1) (hR : ∀ L, R L → R' L) :
    Trail c P R' L f a L1 f1 := by
  induction T with
  | nil h s => exact .nil (hR _ h) s
  | cons h s k w _ ih => exact .cons (hR _ h) s k w ih

/-- Any moment in between. -/
theorem Trail.cut {a : List Ev} (T : Trail c P R L f a L1 f1) : ∀ i, ∃ L', R L' ∧
    StoredR c P L' ((a.take i).foldl (Spec.applyEv c.eraseFx) f) ∧
    ∀ m, KeepsPermanent c.N c.B L'.pages.length m → KeepsPermanent c.N c.B L.pages.length (a.take i ++ m) := by
  induction T with
  | nil h s =>
    intro i
    exact ⟨_, h, by simpa using s, by simp⟩
  | @cons L L1 L2 f f2 e t h s k w T ih =>
    intro i
    cases i with
    | zero => exact ⟨L, h, by simpa using s, by simp⟩
    | succ i =>
      obtain ⟨L', h1, h2, h3⟩ := ih i
      exact ⟨L', h1, h2, fun m hm => k _ (h3 m hm)⟩

theorem Trail.keeps {a : List Ev} (T : Trail c P R L f a L1 f1) (m : List Ev)
    (hm : KeepsPermanent c.N c.B L1.pages.length m) : KeepsPermanent c.N c.B L.pages.length (a ++ m) := by
  induction T with
  | nil h s => exact hm
  | cons h s k w T ih => exact k _ (ih hm)

end

section
variable {c : Cfg} {P S fr : Nat} {ps : List Page} {t : Option Page} {file : Nat → Option Page} {L : Log}

theorem rlcDropped_le (G : RlcGeo c) (I : RImg c P ps S fr t file) {l : Nat} (h : Spec.rlcDropped c.N c.B ps.length ≤ l) :
    S + 2 * c.B ≤ l + c.N := by
  have hB := G.B0
  have h1 := I.lo
  have h2 := I.hi
  obtain ⟨j, hj⟩ := I.dvd
  have hdm := Nat.div_add_mod ps.length c.B
  have hlt := Nat.mod_lt ps.length hB
  unfold Spec.rlcDropped at h
  generalize ps.length / c.B = k at *
  have hjk : j ≤ k + 1 := by
    by_contra hc
    have := Nat.mul_le_mul_left c.B (show k + 2 ≤ j by omega)
    rw [Nat.mul_add] at this
    omega
  have := Nat.mul_le_mul_left c.B hjk
  rw [Nat.mul_add] at this
  have e : (k + 3) * c.B = c.B * k + 3 * c.B := by ring
  rw [e] at h
  omega

/-- An erase of a block without permanent data hits no retained page. -/
theorem keeps_erase (G : RlcGeo c) (I : RImg c P ps S fr t file) {x : Nat} (hx : c.B ∣ x)
    (h1 : ps.length ≤ x) (h2 : x + c.B ≤ S + 2 * c.B) {m : List Ev} (hm : KeepsPermanent c.N c.B ps.length m) :
    KeepsPermanent c.N c.B ps.length (.erase (x % c.N) (x % c.N + c.B) :: m) := by
  refine ⟨?_, hm⟩
  rintro l ⟨l1, l2⟩ h
  obtain ⟨i, hi, he⟩ := (block_mem G.dvd G.N0 hx).mp h
  have := rlcDropped_le G I l2
  have := mod_inj_window (by omega) (by have := I.hi; have := G.four; omega) he
  omega

theorem keeps_tmp (G : RlcGeo c) (I : RImg c P ps S fr t file) {i : Nat} (hi : i < 2 * c.B) (hlt : ps.length < S) {p : Page}
    (hid : pageId p = ps.length) {m : List Ev} (hm : KeepsPermanent c.N c.B ps.length m) :
    KeepsPermanent c.N c.B ps.length (.write ((S + i) % c.N) p :: m) := by
  have := I.hi
  have := G.four
  refine Or.inr ⟨?_, ?_, hm⟩
  · rw [← pageId_spec, hid]
    intro he
    have := mod_inj_window (by omega) (by omega) he
    omega
  · rintro l ⟨l1, l2⟩ he
    have := rlcDropped_le G I l2
    have := mod_inj_window (by omega) (by omega) he
    omega

theorem keeps_perm {N B n : Nat} {p : Page} (hid : pageId p = n) {m : List Ev} (hm : KeepsPermanent N B (n + 1) m) :
    KeepsPermanent N B n (.write (n % N) p :: m) := by
  refine Or.inl ⟨?_, ?_, hm⟩
  · rw [← pageId_spec, hid]
  · rw [← pageId_spec, hid]

end

end EDB
