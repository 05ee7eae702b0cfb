import Verif.Proofs.RlcVarLife
import Verif.Proofs.DemoVar

/-!
# C64: variable data with record-level consistency

The two files of a table with variable data and record-level consistency may live through any number of sessions, each cut off
between any two storage operations, also those of the recovery (`RlcV`).
-/

namespace EDB

open Spec (Log VAttempt MayHold KeepsPermanent)

/-- The assumptions: those of C20, a well-formed variable data file, and no key 0 (see `C49_false_lone_page`). -/
structure RlcVDurable (c : Cfg) (lo K P : Nat) : Prop where
  rlc : RlcDurable c lo K P
  var : c.VOk
  lo0 : 0 < lo

/-- The data file of a machine. -/
def VMachine.data : VMachine → Dev
  | .on d _ => d.dev
  | .off D _ => D

section
variable {c : Cfg} {lo K P : Nat}

/-- C64 (`_partial`: `RlcVDurable` configurations; the variable data file does not wrap, `OfferV.room`; flushes only where they do not
complete a block, `FlushOk`; lookups after opening the files, before the next insert or flush).

Whatever happened to the two files before, any number of sessions of ascending inserts, flushes and reads, power failing at any storage
operation of an insert, a flush, a lookup or a recovery: opening them succeeds, and there is a log `L` that the attempts so far may
have produced such that every record acknowledged is found with its data and exactly the variable data it was inserted with, unless
its page had to be dropped.  (Nothing follows for inserts that were cut off: `C64_false_unacknowledged`.) -/
theorem C64_durable_partial (D : RlcVDurable c lo K P) {A B : Dev} {H : List VAttempt} (h : RlcV c lo K P (.off A B) H) (rb : Page)
    (sm : Nat → Nat × Nat) (vrb : Page) (hb : Bool) :
    ∃ d' v' L, reopenV c A B rb sm vrb hb = (d', v', 0) ∧ MayHold c.maxRec (H.map VAttempt.data) L ∧
      ∀ k a b, (k, a, b) ∈ Spec.ackedV H →
        (∃ d2 v2 st v3, getVar c d' v' k = .ok (d2, v2, 0, some a, st) ∧ readAll c v2 st = .ok (v3, b)) ∨
        ∃ l, l < Spec.rlcDropped c.N c.B L.pages.length ∧ (k, a) ∈ L.pages.getD l [] := by
  obtain ⟨L, T, es, s, w, I⟩ := h.inv D.rlc.ok D.var D.rlc.bounds D.rlc.two D.lo0
  obtain ⟨d', v', ps, fr, t, g, lo', e, O, s1, s2⟩ := I.reopen D.rlc.ok D.var D.rlc.bounds D.rlc.two rb sm vrb hb
  have hn : d'.next = L.pages.length := s1.next
  have hl := O.tab.len
  have hlt := O.tab.img.lt
  have hm : d'.min = Spec.rlcDropped c.N c.B L.pages.length := by rw [O.tab.min, ← hn, rlcDropped_area]
  refine ⟨d', v', L, e, I.rv.hold, ?_⟩
  intro k a b hk
  by_cases hlive : (k, a) ∈ L.live d'.min
  · rcases O.getVar D.rlc.ok D.var D.rlc.bounds I.ord s1 s2 (by omega) hk hlive with q | q
    · exact Or.inr q
    · exact Or.inl q
  · exact Or.inr (gone_of hm ((mayHold_sound I.rv.hold).1.subset (ackedV_acked hk)) hlive)

/-- C64, the data file (`_partial` as above): at every moment of any life, with variable data too, no write of a temporary page and
no erase ever hit a retained permanent page of the data file. -/
theorem C64_temporary_partial (D : RlcVDurable c lo K P) {M : VMachine} {H : List VAttempt} (h : RlcV c lo K P M H) :
    KeepsPermanent c.N c.B 0 M.data.log ∧ Spec.MadeBy c.eraseFx (NoRecords c P) M.data.log M.data.file := by
  have I := h.inv D.rlc.ok D.var D.rlc.bounds D.rlc.two D.lo0
  cases M with
  | on d v =>
    obtain ⟨L, ps, fr, t, T, g, lo', I⟩ := I
    exact ⟨by have := I.kept.keeps [] trivial; rw [List.append_nil] at this; exact this, I.kept.made⟩
  | off A B =>
    obtain ⟨L, T, es, s, w, I⟩ := I
    exact ⟨by have := I.kept.keeps [] trivial; rw [List.append_nil] at this; exact this, I.kept.made⟩

end

/-! ### A life of two such files -/

/-- The demo table with variable data and record-level consistency. -/
def demoRV : Cfg := { demoV with rlc := true, eraseFx := toFF }

theorem demoRV_ok (K : Nat) : RlcOk demoRV K 1000 where
  B0 := by decide
  dvd := by decide
  four := by decide
  N32 := by decide
  page := by decide
  cap := by decide
  cap127 := by decide
  spl := by decide
  layout := ⟨by decide, by decide, fun _ _ h => h⟩
  cmp := cmpOk_cmp3 K
  on := rfl
  spline := rfl
  io _ := rfl
  eraser := ⟨rfl, Or.inr fun _ => ⟨_, rfl, by unfold Blank; decide⟩⟩
  start := Or.inl (by decide)

theorem demoRV_vok : demoRV.VOk where
  vdata := rfl
  page := by decide
  B0 := by decide
  dvd := by decide
  two := by decide
  mem := by decide
  key8 := by decide
  idx := rfl
  io _ := rfl
  cap := fun h => by cases h

theorem demoRV_durable : RlcVDurable demoRV 1 1000 1000 :=
  ⟨⟨demoRV_ok _, ⟨by decide, by decide, by decide⟩, by decide⟩, demoRV_vok, by decide⟩

/-- What may happen next. -/
inductive ActV where
  | put (k : Nat) (a : List Byte) (b : Option (List Byte))
  | flush
  | getVar (k : Nat)
  | idle
  /-- power fails after some storage operations on the data file -/
  | putData (k : Nat) (a : List Byte) (b : Option (List Byte)) (j : Nat)
  /-- power fails after some storage operations on the variable data file -/
  | putAfter (k : Nat) (a : List Byte) (b : Option (List Byte)) (j : Nat)
  | reopen
  | openCut (j : Nat)

/-- Check of `OfferV`. -/
def offerVB (c : Cfg) (lo K : Nat) (H : List VAttempt) (v : Var) (k : Nat) (a : List Byte) (b : Option (List Byte)) : Bool :=
  decide (lo ≤ k) && decide (k + 1 < K) && decide (a.length = c.dataSize) &&
    (Spec.tried (H.map VAttempt.data)).all (fun r => decide (r.1 < k)) &&
    (match b with
     | none => true
     | some bs => decide (bs.length < 2 ^ 32) && decide (v.next + (4 + bs.length) / (c.pageSize - c.vhdr) + 1 < c.numVar))

theorem offerVB_ok {c : Cfg} {lo K : Nat} {H : List VAttempt} {v : Var} {k : Nat} {a : List Byte} {b : Option (List Byte)}
    (h : offerVB c lo K H v k a b = true) : OfferV c lo K H v k a b := by
  simp only [offerVB, Bool.and_eq_true, decide_eq_true_eq, List.all_eq_true] at h
  obtain ⟨⟨⟨⟨h1, h2⟩, h3⟩, h4⟩, h5⟩ := h
  refine ⟨h1, h2, h3, h4, ?_⟩
  rintro bs rfl
  simpa using h5

/-- Play it if it is allowed. -/
def actV (c : Cfg) (lo K P : Nat) : VMachine × List VAttempt → ActV → Option (VMachine × List VAttempt)
  | (.on d v, H), .put k a b =>
    if offerVB c lo K H v k a b ∧ d.next + 1 < P then
      match putVar c d noIdx v k a b with
      | .ok (d', _, v', 0) => some (.on d' v', H ++ [.put k a b])
      | _ => none
    else none
  | (.on d v, H), .flush =>
    if FlushOk c d ∧ d.next + 1 < P then
      match flushV c d noIdx v with
      | .ok (d', _, v', 0) => some (.on d' v', H ++ [.flush])
      | _ => none
    else none
  | (.on d v, H), .getVar k =>
    match getVar c d v k with
    | .ok (d', v', _, _, _) => some (.on d' v', H)
    | _ => none
  | (.on d v, H), .idle => some (.off d.dev v.dev, H)
  | (.on d v, H), .putData k a b j =>
    if offerVB c lo K H v k a b ∧ d.next + 1 < P then
      match stepV c d noIdx v (.put k a b) with
      | .ok (d', _, _, _) => some (.off (cutFrom c d.dev d'.dev j) (preVar c d v).dev, H ++ [.putCut k a b])
      | _ => none
    else none
  | (.on d v, H), .putAfter k a b j =>
    if offerVB c lo K H v k a b ∧ d.next + 1 < P then
      match stepV c d noIdx v (.put k a b) with
      | .ok (d', _, v', _) => some (.off d'.dev (cutFrom c (preVar c d v).dev v'.dev j), H ++ [.putCut k a b])
      | _ => none
    else none
  | (.off A B, H), .reopen =>
    match reopenV c A B (fun _ => 7) (fun _ => (0, 0)) (fun _ => 9) true with
    | (d', v', 0) => some (.on d' v', H)
    | _ => none
  | (.off A B, H), .openCut j => some (.off (cutFrom c A (recover c A (fun _ => 7) (fun _ => (0, 0))).1.dev j) B, H)
  | _, _ => none

/-- Play it all. -/
def actsV (c : Cfg) (lo K P : Nat) : VMachine × List VAttempt → List ActV → Option (VMachine × List VAttempt)
  | M, [] => some M
  | M, a :: t => (actV c lo K P M a).bind fun M => actsV c lo K P M t

theorem actV_rlc {c : Cfg} {lo K P : Nat} {M M' : VMachine × List VAttempt} {a : ActV}
    (h : RlcV c lo K P M.1 M.2) (e : actV c lo K P M a = some M') : RlcV c lo K P M'.1 M'.2 := by
  unfold actV at e
  split at e
  · split_ifs at e with h1
    split at e
    · rename_i heq
      cases e
      exact h.put (offerVB_ok h1.1) h1.2 heq
    · cases e
  · split_ifs at e with h1
    split at e
    · rename_i heq
      cases e
      exact h.flush h1.1 h1.2 heq
    · cases e
  · split at e
    · rename_i heq
      cases e
      exact h.getVar heq
    · cases e
  · cases e
    exact h.idle
  · split_ifs at e with h1
    split at e
    · rename_i heq
      cases e
      exact h.putCut (offerVB_ok h1.1) h1.2 (PowerFail.putData _ _ _ _ heq)
    · cases e
  · split_ifs at e with h1
    split at e
    · rename_i heq
      cases e
      exact h.putCut (offerVB_ok h1.1) h1.2 (PowerFail.putAfter _ _ _ _ heq)
    · cases e
  · split at e
    · rename_i heq
      cases e
      exact h.reopen _ _ _ _ heq
    · cases e
  · cases e
    exact h.openCut _ _ rfl _
  · cases e

theorem actsV_rlc {c : Cfg} {lo K P : Nat} : ∀ (l : List ActV) {M M' : VMachine × List VAttempt},
    RlcV c lo K P M.1 M.2 → actsV c lo K P M l = some M' → RlcV c lo K P M'.1 M'.2 := by
  intro l
  induction l with
  | nil => intro M M' h e; cases e; exact h
  | cons a t ih =>
    intro M M' h e
    unfold actsV at e
    obtain ⟨M1, h1, h2⟩ := Option.bind_eq_some_iff.mp e
    exact ih (actV_rlc h h1) h2

/-- Where it begins. -/
def startRV : VMachine × List VAttempt := (.on (Data.fresh demoRV (fun _ => 0) (fun _ => (0, 0))) (Var.fresh demoRV (fun _ => 0) false), [])

/-- Power fails during inserts (of the data page, of the variable page) and during recovery; variable data over several pages. -/
def lifeRV : List ActV :=
  [.put 1 (dat 1) (some (blob 10 10)), .put 2 (dat 2) none, .put 3 (dat 3) (some (blob 40 20)), .getVar 1,
    .putData 4 (dat 4) (some (blob 5 50)) 1, .openCut 0, .reopen, .put 5 (dat 5) (some (blob 7 90)), .put 6 (dat 6) none,
    .putAfter 7 (dat 7) (some (blob 60 1)) 2, .openCut 1, .reopen, .getVar 3, .put 8 (dat 8) (some (blob 26 30)), .idle, .reopen,
    .put 9 (dat 9) (some []), .put 10 (dat 10) (some (blob 3 200)), .putData 11 (dat 11) none 1]

/-- Test of the end of `lifeRV`. -/
def endTestRV : Option (VMachine × List VAttempt) → Bool
  | some (.off A B, H) => decide (29 ≤ A.log.length) && decide (10 ≤ B.log.length) && decide ((Spec.ackedV H).length = 8)
  | _ => false

example : ∃ A B H, RlcV demoRV 1 1000 1000 (.off A B) H ∧ 29 ≤ A.log.length ∧ 10 ≤ B.log.length ∧ (Spec.ackedV H).length = 8 := by
  have h : endTestRV (actsV demoRV 1 1000 1000 startRV lifeRV) = true := by decide +kernel
  cases e : actsV demoRV 1 1000 1000 startRV lifeRV with
  | none => rw [e] at h; cases h
  | some M =>
    rw [e] at h
    obtain ⟨M, H⟩ := M
    cases M with
    | on d v => cases h
    | off A B =>
      simp only [endTestRV, Bool.and_eq_true, decide_eq_true_eq] at h
      exact ⟨A, B, H, actsV_rlc _ (.new _ _ _ _) e, h.1.1, h.1.2, h.2⟩

end EDB
