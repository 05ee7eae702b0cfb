import Verif.Model.RlcLife
import Verif.Proofs.DemoOk
import Verif.Proofs.RlcLife

/-! Concrete lives of files with record-level consistency, for the examples. -/

namespace EDB

open Spec (Attempt)

/-- An erase as flash memory does it. -/
def toFF : Option Page → Option Page
  | none => none
  | some _ => some fun _ => 255

/-- The demo table with record-level consistency, eight pages in blocks of two. -/
def demoR : Cfg := { demo with N := 8, rlc := true, eraseFx := toFF }

theorem demoR_ok (K : Nat) : RlcOk demoR K 1000 where
  B0 := by decide
  dvd := by decide
  four := by decide
  N32 := by decide
  page := by decide
  cap := by decide
  cap127 := by decide
  spl := by decide
  layout := ⟨by decide, by decide, fun _ _ h => h⟩
  cmp := cmpOk_cmp3 K
  on := rfl
  spline := rfl
  io _ := rfl
  eraser := ⟨rfl, Or.inr fun _ => ⟨_, rfl, by unfold Blank; decide⟩⟩
  start := Or.inl (by decide)

theorem demoR_bounds : Bounds demoR 0 1000 1000 := by
  refine ⟨by decide, by decide, by decide⟩

/-- What may happen next. -/
inductive Act where
  | put (k : Nat) (v : List Byte)
  | flush
  | idle
  /-- power fails after some more storage operations -/
  | putCut (k : Nat) (v : List Byte) (j : Nat)
  | flushCut (j : Nat)
  | reopen
  | openCut (j : Nat)
  /-- the unreadable pages before page `n`, which was written, read as zeros -/
  | hole (n : Nat)

instance (c : Cfg) (lo K : Nat) (H : List Attempt) (k : Nat) (v : List Byte) : Decidable (Offer c lo K H k v) :=
  inferInstanceAs (Decidable (_ ∧ _ ∧ _ ∧ _))

instance (c : Cfg) (d : Data) : Decidable (FlushOk c d) := inferInstanceAs (Decidable (_ ∨ _))

/-- A file with a hole. -/
def holeTo (n : Nat) (f : Nat → Option Page) (ph : Nat) : Option Page :=
  if ph < n ∧ (f ph).isNone = true then some fun _ => 0 else f ph

theorem holeTo_gaps {c : Cfg} {P n : Nat} {f : Nat → Option Page} {q : Page} (h : f n = some q) (hq : pageId q < P) (hn : n ≤ c.N) :
    Gaps c P f (holeTo n f) := by
  intro ph
  unfold holeTo
  by_cases hp : ph < n ∧ (f ph).isNone = true
  · rw [if_pos hp]
    refine Or.inr ⟨Option.isNone_iff_eq_none.mp hp.2, by omega, _, rfl, by decide, Or.inr ⟨by decide, by decide, n, q, hp.1, h, hq⟩⟩
  · rw [if_neg hp]; exact Or.inl rfl

/-- Play it if it is allowed; `hole` tells what may be seen when power is off. -/
def actG (hole : Nat → Dev → Option (Nat → Option Page)) (c : Cfg) (lo K P : Nat) (rb : Page) (sm : Nat → Nat × Nat) : Machine × List Attempt → Act → Option (Machine × List Attempt)
  | (.on d, H), .put k v =>
    if Offer c lo K H k v ∧ d.next + 1 < P then
      match putD c d k v 0 with
      | .ok (d', 0, _) => some (.on d', H ++ [.put (k, v)])
      | _ => none
    else none
  | (.on d, H), .flush =>
    if FlushOk c d ∧ d.next + 1 < P then
      match flushD c d with
      | .ok (d', 0, _) => some (.on d', H ++ [.flush])
      | _ => none
    else none
  | (.on d, H), .idle => some (.off d.dev, H)
  | (.on d, H), .putCut k v j =>
    if Offer c lo K H k v ∧ d.next + 1 < P then
      match putD c d k v 0 with
      | .ok (d', _, _) => some (.off (cutFrom c d.dev d'.dev j), H ++ [.putCut (k, v)])
      | _ => none
    else none
  | (.on d, H), .flushCut j =>
    if FlushOk c d ∧ d.next + 1 < P then
      match flushD c d with
      | .ok (d', _, _) => some (.off (cutFrom c d.dev d'.dev j), H ++ [.flushCut])
      | _ => none
    else none
  | (.off v, H), .reopen =>
    match recover c v rb sm with
    | (d', 0) => some (.on d', H)
    | _ => none
  | (.off v, H), .openCut j => some (.off (cutFrom c v (recover c v rb sm).1.dev j), H)
  | (.off v, H), .hole n =>
    match hole n v with
    | some f' => some (.off { v with file := f' }, H)
    | none => none
  | _, _ => none

/-- Play it all. -/
def actsG (hole : Nat → Dev → Option (Nat → Option Page)) (c : Cfg) (lo K P : Nat) (rb : Page) (sm : Nat → Nat × Nat) : Machine × List Attempt → List Act → Option (Machine × List Attempt)
  | M, [] => some M
  | M, a :: t => (actG hole c lo K P rb sm M a).bind fun M => actsG hole c lo K P rb sm M t

section
variable {hole : Nat → Dev → Option (Nat → Option Page)} {G : Dev → (Nat → Option Page) → Prop}

theorem actG_rlc (hG : ∀ n v f', hole n v = some f' → G v f') {c : Cfg} {lo K P : Nat} {rb : Page} {sm : Nat → Nat × Nat} {M M' : Machine × List Attempt} {a : Act}
    (h : RlcG c lo K P G M.1 M.2) (e : actG hole c lo K P rb sm M a = some M') : RlcG c lo K P G M'.1 M'.2 := by
  unfold actG at e
  split at e
  · split_ifs at e with h1
    split at e
    · rename_i heq
      cases e
      exact h.put h1.1 h1.2 heq
    · cases e
  · split_ifs at e with h1
    split at e
    · rename_i heq
      cases e
      exact h.flush h1.1 h1.2 heq
    · cases e
  · cases e
    exact h.idle
  · split_ifs at e with h1
    split at e
    · rename_i heq
      cases e
      exact h.putCut h1.1 h1.2 heq _
    · cases e
  · split_ifs at e with h1
    split at e
    · rename_i heq
      cases e
      exact h.flushCut h1.1 h1.2 heq _
    · cases e
  · split at e
    · rename_i heq
      cases e
      exact h.reopen rb sm heq
    · cases e
  · cases e
    exact h.openCut rb sm rfl _
  · split at e
    · rename_i heq
      cases e
      exact h.gaps (hG _ _ _ heq)
    · cases e
  · cases e

theorem actsG_rlc (hG : ∀ n v f', hole n v = some f' → G v f') {c : Cfg} {lo K P : Nat} {rb : Page} {sm : Nat → Nat × Nat} : ∀ (l : List Act) {M M' : Machine × List Attempt},
    RlcG c lo K P G M.1 M.2 → actsG hole c lo K P rb sm M l = some M' → RlcG c lo K P G M'.1 M'.2 := by
  intro l
  induction l with
  | nil => intro M M' h e; cases e; exact h
  | cons a t ih =>
    intro M M' h e
    unfold actsG at e
    obtain ⟨M1, h1, h2⟩ := Option.bind_eq_some_iff.mp e
    exact ih (actG_rlc hG h h1) h2

end

/-- A hole in front of page `n`. -/
def holeOf (c : Cfg) (P n : Nat) (v : Dev) : Option (Nat → Option Page) :=
  match v.file n with
  | some q => if pageId q < P ∧ n ≤ c.N then some (holeTo n v.file) else none
  | none => none

theorem holeOf_gaps {c : Cfg} {P : Nat} (n : Nat) (v : Dev) (f' : Nat → Option Page) (h : holeOf c P n v = some f') : Gaps c P v.file f' := by
  unfold holeOf at h
  split at h
  · rename_i heq
    split_ifs at h with h1
    cases h
    exact holeTo_gaps heq h1.1 h1.2
  · cases h

/-- With holes. -/
def acts (c : Cfg) (lo K P : Nat) : Page → (Nat → Nat × Nat) → Machine × List Attempt → List Act → Option (Machine × List Attempt) :=
  actsG (holeOf c P) c lo K P

theorem acts_rlc {c : Cfg} {lo K P : Nat} {rb : Page} {sm : Nat → Nat × Nat} (l : List Act) {M M' : Machine × List Attempt}
    (h : Rlc c lo K P M.1 M.2) (e : acts c lo K P rb sm M l = some M') : Rlc c lo K P M'.1 M'.2 :=
  actsG_rlc (G := fun v f' => Gaps c P v.file f') holeOf_gaps l h e

/-- Four bytes of data. -/
def datR (k : Nat) : List Byte := leBytes 4 (k + 7)

/-- Inserts with these keys. -/
def putsR (l : List Nat) : List Act := l.map fun k => .put k (datR k)

/-- A life with several power failures: during an insert that completes a page, during a flush, during recovery, and
during the insert that follows the move of the temporary area; the ring wraps. -/
def lifeR : List Act :=
  putsR [1, 2, 3, 4, 5] ++ [.putCut 6 (datR 6) 0, .reopen] ++ putsR [7, 8] ++ [.putCut 9 (datR 9) 1, .openCut 1, .openCut 2, .reopen] ++
    putsR [10, 11, 12] ++ [.idle, .reopen, .flushCut 1, .reopen] ++ putsR [13, 14, 15, 16, 17, 18, 19, 20] ++ [.putCut 21 (datR 21) 2, .reopen] ++
    putsR [22, 23, 24] ++ [.putCut 25 (datR 25) 3]

/-- The same table in a file of a file system, where an erase does nothing. -/
def demoD : Cfg := { demoR with eraseFx := id }

theorem demoD_ok (K : Nat) : RlcOk demoD K 1000 :=
  { demoR_ok K with
    layout := ⟨by decide, by decide, fun _ _ h => h⟩
    cmp := cmpOk_cmp3 K
    eraser := ⟨rfl, Or.inl fun _ => rfl⟩ }

theorem demoD_bounds : Bounds demoD 0 1000 1000 := by
  refine ⟨by decide, by decide, by decide⟩

/-- The first temporary page is written to page 2, later ones to pages up to 5, then data pages to 0 and 1; a hole is left each time
power fails. -/
def lifeD : List Act :=
  putsR [1] ++ [.idle, .hole 2, .reopen] ++ putsR [2] ++ [.putCut 3 (datR 3) 1, .openCut 1, .hole 3, .reopen] ++ putsR [4, 5, 6, 7] ++
    [.putCut 8 (datR 8) 2, .hole 5, .reopen] ++ putsR [9, 10, 11, 12, 13, 14] ++ [.idle, .reopen] ++ putsR [15, 16, 17, 18]

/-- A chip that shows its blank pages. -/
def chipR : Dev := { (Data.fresh demoR (fun _ => 0) fun _ => (0, 0)).dev with file := fun ph => if ph < 8 then some fun _ => 255 else none }

theorem chipR_rlc : Rlc demoR 0 1000 1000 (.off chipR) [] := by
  refine RlcG.gaps (.idle (.new (fun _ => 0) fun _ => (0, 0))) ?_
  intro ph
  by_cases h : ph < 8
  · refine Or.inr ⟨rfl, h, fun _ => 255, if_pos h, by decide, Or.inl ⟨by decide, rfl, ?_⟩⟩
    have : ∀ ph, ph < 8 → demoR.B ∣ ph → pageId (fun _ => 255) % demoR.N ≠ ph := by decide
    exact this ph h
  · exact Or.inl (if_neg h)

/-- Where it begins. -/
def startR : Machine × List Attempt := (.on (Data.fresh demoR (fun _ => 0) (fun _ => (0, 0))), [])

/-- Where it ends. -/
def endR : Option (Machine × List Attempt) := acts demoR 0 1000 1000 (fun _ => 0) (fun _ => (0, 0)) startR lifeR

theorem endR_rlc {M : Machine × List Attempt} (h : endR = some M) : Rlc demoR 0 1000 1000 M.1 M.2 :=
  acts_rlc _ (.new _ _) h

end EDB
