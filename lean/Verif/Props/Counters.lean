import Verif.Model.Var
import Verif.Model.Counters

/-! # C75: the statistics count the accesses to storage -/

namespace Spec
open EDB

/-- How many calls of the device in `cs` are reads, answered with success, of one of the files `fs`. -/
def okReads (fs : List StFile) (cs : List DevCall) : Nat :=
  (cs.filter fun c => match c with | .read f _ ok => ok && fs.contains f | .write _ _ => false).length

/-- How many calls of the device in `cs` are writes, answered with success, to one of the files `fs`. -/
def okWrites (fs : List StFile) (cs : List DevCall) : Nat :=
  (cs.filter fun c => match c with | .write f ok => ok && fs.contains f | .read _ _ _ => false).length

/-- How many calls of the device in `cs` are reads. -/
def allReads (cs : List DevCall) : Nat :=
  (cs.filter fun c => match c with | .read _ _ _ => true | .write _ _ => false).length

/-- How many accesses are requests for a page. -/
def readRequests (as : List Access) : Nat :=
  (as.filter fun a => match a with | .read _ _ _ => true | _ => false).length

/-- The temporary pages written with success. -/
def okTemps (as : List Access) : Nat :=
  (as.filter fun a => match a with | .temp ok => ok | _ => false).length

/-- The page of file `f` that the device delivered last, if it delivered one. -/
def lastRead (f : StFile) : List DevCall → Option Nat
  | [] => none
  | c :: cs =>
    match lastRead f cs with
    | some p => some p
    | none => match c with
      | .read g p ok => if g = f ∧ ok = true then some p else none
      | .write _ _ => none

end Spec

namespace EDB

open StatState

/-- No reset among the accesses. -/
def noReset (as : List Access) : Prop := ∀ a ∈ as, a ≠ .reset

theorem accesses_append (s : StatState) (as bs : List Access) :
    s.accesses (as ++ bs) =
      (((s.accesses as).1.accesses bs).1, (s.accesses as).2 ++ ((s.accesses as).1.accesses bs).2) := by
  induction as generalizing s with
  | nil => simp [accesses]
  | cons a as ih => simp [accesses, ih]

/-- The counters after accesses without a reset, from the counters before them. -/
theorem accesses_cnt (s : StatState) (as : List Access) (h : noReset as) :
    let cs := (s.accesses as).2
    let k := (s.accesses as).1.cnt
    k.numReads % 2 ^ 32 = (s.cnt.numReads + Spec.okReads [.data, .var] cs) % 2 ^ 32 ∧
    k.numIdxReads % 2 ^ 32 = (s.cnt.numIdxReads + Spec.okReads [.idx] cs) % 2 ^ 32 ∧
    (k.numWrites + Spec.okTemps as) % 2 ^ 32 = (s.cnt.numWrites + Spec.okWrites [.data, .var] cs) % 2 ^ 32 ∧
    k.numIdxWrites % 2 ^ 32 = (s.cnt.numIdxWrites + Spec.okWrites [.idx] cs) % 2 ^ 32 ∧
    (k.bufferHits + Spec.allReads cs) % 2 ^ 32 = (s.cnt.bufferHits + Spec.readRequests as) % 2 ^ 32 := by
  induction as generalizing s with
  | nil => simp [accesses, Spec.okReads, Spec.okWrites, Spec.allReads, Spec.okTemps, Spec.readRequests]
  | cons a as ih =>
    have h2 : noReset as := fun b hb => h b (by simp [hb])
    have hi := ih (s.access a).1 h2
    simp only [accesses]
    generalize he : (s.access a).1.accesses as = r at hi ⊢
    obtain ⟨h1, h3, h4, h5, h6⟩ := hi
    cases a with
    | reset => exact absurd rfl (h .reset (by simp))
    | read f p ok =>
      by_cases ht : s.tag f = some p
      · simp only [access, ht, if_true] at h1 h3 h4 h5 h6 ⊢
        simp only [Spec.okReads, Spec.okWrites, Spec.allReads, Spec.okTemps, Spec.readRequests, inc32,
          List.nil_append, List.filter_cons, List.length_cons, if_true, Bool.false_eq_true, if_false] at *
        omega
      · cases ok <;> cases f <;> simp only [access, ht, if_false, if_true, Bool.false_eq_true] at h1 h3 h4 h5 h6 ⊢ <;>
          simp [Spec.okReads, Spec.okWrites, Spec.allReads, Spec.okTemps, Spec.readRequests, inc32,
            List.filter_cons, countRead, setTag] at * <;> omega
    | write f ok =>
      cases ok <;> cases f <;> simp only [access, if_true, Bool.false_eq_true, if_false] at h1 h3 h4 h5 h6 ⊢ <;>
        simp [Spec.okReads, Spec.okWrites, Spec.allReads, Spec.okTemps, Spec.readRequests, inc32,
            List.filter_cons, countWrite] at * <;> omega
    | temp ok =>
      cases ok <;> simp only [access] at h1 h3 h4 h5 h6 ⊢ <;>
        simp [Spec.okReads, Spec.okWrites, Spec.allReads, Spec.okTemps, Spec.readRequests,
            List.filter_cons] at * <;> omega

/-- Every counter is below `2 ^ 32`. -/
def Counters.Small (k : Counters) : Prop :=
  k.numReads < 2 ^ 32 ∧ k.numWrites < 2 ^ 32 ∧ k.bufferHits < 2 ^ 32 ∧ k.numIdxReads < 2 ^ 32 ∧
    k.numIdxWrites < 2 ^ 32

theorem access_small (s : StatState) (a : Access) (h : s.cnt.Small) : (s.access a).1.cnt.Small := by
  have hl : ∀ x, inc32 x < 2 ^ 32 := fun x => Nat.mod_lt _ (by decide)
  obtain ⟨h1, h2, h3, h4, h5⟩ := h
  cases a with
  | reset => simp [access, resetStats, Counters.Small]
  | read f p ok =>
    simp only [access]
    split
    · exact ⟨h1, h2, hl _, h4, h5⟩
    · cases ok
      · exact ⟨h1, h2, h3, h4, h5⟩
      · cases f
        · exact ⟨hl _, h2, h3, h4, h5⟩
        · exact ⟨h1, h2, h3, hl _, h5⟩
        · exact ⟨hl _, h2, h3, h4, h5⟩
  | write f ok =>
    cases ok
    · exact ⟨h1, h2, h3, h4, h5⟩
    · cases f
      · exact ⟨h1, hl _, h3, h4, h5⟩
      · exact ⟨h1, h2, h3, h4, hl _⟩
      · exact ⟨h1, hl _, h3, h4, h5⟩
  | temp ok => exact ⟨h1, h2, h3, h4, h5⟩

theorem accesses_small (s : StatState) (as : List Access) (h : s.cnt.Small) : (s.accesses as).1.cnt.Small := by
  induction as generalizing s with
  | nil => exact h
  | cons a as ih => exact ih _ (access_small s a h)

theorem resetStats_small (s : StatState) : s.resetStats.cnt.Small := by
  simp [resetStats, Counters.Small]

/-- **C75 (counts).**  After `embedDBResetStats` and any accesses, with any answers of the device, the counters are,
modulo `2 ^ 32`: the reads of the data and variable files the device answered with success, those of the index file,
the writes to the data and variable files it answered with success except those of temporary pages, those to the index
file, and the requests for pages which made no call of the device.
Partial: the full statement has no exception for temporary pages, `C75_false_temp`. -/
theorem C75_counts_partial (s : StatState) (as : List Access) (h : noReset as) :
    let cs := (s.resetStats.accesses as).2
    let k := (s.resetStats.accesses as).1.cnt
    k.numReads = Spec.okReads [.data, .var] cs % 2 ^ 32 ∧
    k.numIdxReads = Spec.okReads [.idx] cs % 2 ^ 32 ∧
    k.numIdxWrites = Spec.okWrites [.idx] cs % 2 ^ 32 ∧
    (k.numWrites + Spec.okTemps as) % 2 ^ 32 = Spec.okWrites [.data, .var] cs % 2 ^ 32 ∧
    (k.bufferHits + Spec.allReads cs) % 2 ^ 32 = Spec.readRequests as % 2 ^ 32 := by
  have hc := accesses_cnt s.resetStats as h
  have hs := accesses_small s.resetStats as (resetStats_small s)
  obtain ⟨a1, a2, a3, a4, a5⟩ := hc
  obtain ⟨b1, b2, b3, b4, b5⟩ := hs
  simp only [resetStats, Nat.zero_add] at a1 a2 a3 a4 a5 b1 b2 b3 b4 b5 ⊢
  rw [Nat.mod_eq_of_lt b1] at a1
  rw [Nat.mod_eq_of_lt b4] at a2
  rw [Nat.mod_eq_of_lt b5] at a4
  exact ⟨a1, a2, a4, a3, a5⟩

/-- What was counted before the last reset is forgotten: a reset is as good as a new state with zero counters and the same buffers. -/
theorem C75_reset (s : StatState) (as bs : List Access) :
    (s.accesses (as ++ .reset :: bs)).1 = (StatState.accesses { (s.accesses as).1 with
      cnt := { numReads := 0, numWrites := 0, numIdxReads := 0, numIdxWrites := 0, bufferHits := 0 } } bs).1 := by
  rw [accesses_append]; rfl

theorem lastRead_append (f : StFile) (a b : List DevCall) :
    Spec.lastRead f (a ++ b) = (Spec.lastRead f b).or (Spec.lastRead f a) := by
  induction a with
  | nil => simp [Spec.lastRead]
  | cons c a ih =>
    simp only [List.cons_append, Spec.lastRead, ih]
    cases h : Spec.lastRead f b <;> simp

theorem access_tag (s : StatState) (a : Access) (f : StFile) :
    (s.access a).1.tag f = (Spec.lastRead f (s.access a).2.1).or (s.tag f) := by
  cases a with
  | reset => cases f <;> rfl
  | temp ok => cases f <;> rfl
  | write g ok => cases ok <;> cases g <;> cases f <;> rfl
  | read g p ok =>
    simp only [access]
    split
    · cases f <;> rfl
    · cases ok <;> cases g <;> cases f <;> rfl

theorem accesses_tag (s : StatState) (as : List Access) (f : StFile) :
    (s.accesses as).1.tag f = (Spec.lastRead f (s.accesses as).2).or (s.tag f) := by
  induction as generalizing s with
  | nil => simp [accesses, Spec.lastRead]
  | cons a as ih =>
    simp only [accesses]
    rw [ih, access_tag, lastRead_append, Option.or_assoc]

/-- **C75 (hits).**  After `embedDBInit` set the tags to -1 and any accesses, a request for a page makes no call of the
device exactly when that page is the one the device delivered last from that file; then it succeeds and is counted as a
buffer hit, and otherwise the device is asked for that page of that file, once, and the request succeeds exactly when
the device does. -/
theorem C75_hits (k : Counters) (as : List Access) (f : StFile) (p : Nat) (ok : Bool) :
    let s0 : StatState := { cnt := k, bufData := none, bufIdx := none, bufVar := none }
    let s := (s0.accesses as).1
    let r := s.access (.read f p ok)
    (Spec.lastRead f (s0.accesses as).2 = some p →
      r.2.1 = [] ∧ r.2.2 = true ∧ r.1.cnt = { s.cnt with bufferHits := (s.cnt.bufferHits + 1) % 2 ^ 32 }) ∧
    (Spec.lastRead f (s0.accesses as).2 ≠ some p →
      r.2.1 = [.read f p ok] ∧ r.2.2 = ok ∧ r.1.cnt.bufferHits = s.cnt.bufferHits) := by
  intro s0 s r
  have ht : s.tag f = Spec.lastRead f (s0.accesses as).2 := by
    have h := accesses_tag s0 as f
    have h0 : s0.tag f = none := by cases f <;> rfl
    rw [h0, Option.or_none] at h
    exact h
  constructor
  · intro h
    have hp : s.tag f = some p := ht.trans h
    have hr : r = ({ s with cnt := { s.cnt with bufferHits := inc32 s.cnt.bufferHits } }, [], true) := by
      simp only [r, access, hp, if_true]
    rw [hr]; exact ⟨rfl, rfl, rfl⟩
  · intro h
    have hp : ¬ s.tag f = some p := by rw [ht]; exact h
    cases ok with
    | false =>
      have hr : r = (s, [.read f p false], false) := by simp [r, access, hp]
      rw [hr]; exact ⟨rfl, rfl, rfl⟩
    | true =>
      have hr : r = ((s.countRead f).setTag f p, [.read f p true], true) := by simp [r, access, hp]
      rw [hr]; refine ⟨rfl, rfl, ?_⟩
      cases f <;> rfl

/-- **C75 (start).**  Opening a table without variable data leaves all counters at zero, whatever memory held and
whatever recovery read.  Partial: false of tables with variable data, `C75_false_start`. -/
theorem C75_start_partial (junk : Counters) (init : List Access) :
    (initStats false junk init).cnt = ⟨0, 0, 0, 0, 0⟩ := rfl

/-! ## The counters and the model of the data file -/

/-- The part of the state of the data file that the statistics see. -/
def Data.statOf (d : Data) (k : StatState) : Prop :=
  k.bufData = d.buffered ∧ k.cnt.numReads = d.numReads % 2 ^ 32

/-- `readPage` of the model of the data file is the access `read`: the device answers with success when it holds the
page, and the counter of `Data` is the counter of the state. -/
theorem C75_data (d : Data) (k : StatState) (h : d.statOf k) (p : Nat) :
    let a := Access.read .data p (d.dev.file p).isSome
    (readPage d p).1.statOf (k.access a).1 ∧ (readPage d p).2 = (k.access a).2.2 := by
  obtain ⟨h1, h2⟩ := h
  intro a
  simp only [a, readPage, access, tag, h1]
  by_cases hb : d.buffered = some p
  · simp [hb, Data.statOf, h1, h2]
  · cases hf : d.dev.file p with
    | none => simp [hb, Data.statOf, h1, h2]
    | some q => simp [hb, Data.statOf, countRead, setTag, h2, inc32]

/-- The same of `readIndexPage` in the model of the index file: the same requests are answered without the device, and the others are
counted as reads of index pages. -/
theorem C75_idx (x : Idx) (k : StatState) (h : k.bufIdx = x.buffered) (p : Nat) :
    let a := Access.read .idx p (x.dev.file p).isSome
    (k.access a).1.bufIdx = (readIdx x p).1.buffered ∧ (k.access a).2.2 = (readIdx x p).2 ∧
    ((k.access a).1.cnt.numIdxReads = if (readIdx x p).2 ∧ x.buffered ≠ some p then inc32 k.cnt.numIdxReads else k.cnt.numIdxReads) := by
  intro a
  simp only [a, readIdx, access, tag, h]
  by_cases hb : x.buffered = some p
  · simp [hb, h]
  · obtain hf | ⟨q, hf⟩ := Option.eq_none_or_eq_some (x.dev.file p)
    · simp [hb, hf, h]
    · simp [hb, hf, countRead, setTag]

/-- The same of `readVariablePage` in the model of the variable data file; its reads are counted with those of data pages. -/
theorem C75_var (v : Var) (k : StatState) (h : k.bufVar = v.buffered) (p : Nat) :
    let a := Access.read .var p (v.dev.file p).isSome
    (k.access a).1.bufVar = (readVar v p).1.buffered ∧ (k.access a).2.2 = (readVar v p).2 ∧
    ((k.access a).1.cnt.numReads = if (readVar v p).2 ∧ v.buffered ≠ some p then inc32 k.cnt.numReads else k.cnt.numReads) := by
  intro a
  simp only [a, readVar, access, tag, h]
  by_cases hb : v.buffered = some p
  · simp [hb, h]
  · obtain hf | ⟨q, hf⟩ := Option.eq_none_or_eq_some (v.dev.file p)
    · simp [hb, hf, h]
    · simp [hb, hf, countRead, setTag]

/-! ## Examples -/

/-- A run with a hit, a failed read, reads of all three files, writes and a temporary page. -/
def statDemo : List Access :=
  [.read .data 3 true, .read .data 3 true, .read .idx 3 true, .read .var 0 false, .read .var 0 true,
   .write .data true, .write .var true, .write .idx true, .temp true, .write .data false, .read .data 4 true,
   .read .data 3 true]

example : noReset statDemo ∧
    ((⟨⟨9, 9, 9, 9, 9⟩, none, none, none⟩ : StatState).resetStats.accesses statDemo).1.cnt =
      { numWrites := 2, numReads := 4, numIdxWrites := 1, numIdxReads := 1, bufferHits := 1 } := by
  constructor
  · unfold noReset; decide
  · decide

example : Spec.lastRead .data
    ((⟨⟨9, 9, 9, 9, 9⟩, none, none, none⟩ : StatState).accesses statDemo).2 = some 3 := by decide

end EDB
