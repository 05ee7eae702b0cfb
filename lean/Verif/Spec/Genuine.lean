import Verif.Spec.Fault

/-!
# Specification: nothing but what was inserted

Whatever goes wrong, a lookup must not answer with data that was never inserted under this key, and a scan or cursor must
not deliver a record that was never inserted or lies outside its bounds.  (Records may be missing or come more than once.)
-/

namespace Spec

/-- The records an operation may have added: those of inserts that were not refused for their key (code 1). -/
def gained : Op → Out → List Rec
  | .put k v, .code r => if r = 1 then [] else [(k, v)]
  | _, _ => []

/-- The same for all operations. -/
def gainedF : FOp → MOut → List Rec
  | .plain (.op o), .out u => gained o u
  | _, _ => []

/-- The bounds of the cursors after an operation. -/
def boundsAfter (b : Nat → Option Range) : FOp → Nat → Option Range
  | .plain (.opn i q) => setAt b i (some q)
  | _ => b

/-- The result of an operation of a client who has inserted `S` and whose cursors have the bounds `b`. -/
def Genuine (cmp : List UInt8 → List UInt8 → Int) (S : List Rec) (b : Nat → Option Range) (op : FOp) (o : MOut) : Prop :=
  match op.base with
  | .op (.put _ _) => ∃ r, o = .out (.code r)
  | .op .flush => ∃ r, o = .out (.code r)
  | .op (.get k) => ∃ r v, o = .out (.got r v) ∧ (r = 0 ∨ r = -1) ∧ (r = 0 → v ≠ none) ∧ ∀ w, v = some w → (k, w) ∈ S
  | .op (.scan q) => ∃ rs, o = .out (.rows rs) ∧ ∀ r ∈ rs, r ∈ S ∧ q.has cmp r = true
  | .opn _ _ => o = .opened
  | .nxt i => ∃ r, o = .row r ∧ ∀ w, r = some w → w ∈ S ∧ ∃ q, b i = some q ∧ q.has cmp w = true

/-- Every result is genuine, as far as the library returned. -/
def GenuineRun (cmp : List UInt8 → List UInt8 → Int) : List Rec → (Nat → Option Range) → List (FOp × Option MOut) → Prop
  | _, _, [] => True
  | S, b, (op, some o) :: t => Genuine cmp S b op o ∧ GenuineRun cmp (S ++ gainedF op o) (boundsAfter b op) t
  | _, _, (_, none) :: _ => True

end Spec
