import Verif.Spec.Device

/-! What a successful page write means (for C42). -/

namespace Spec

open EDB (Ev Page)

/-- Between two states of a storage log exactly one page was written, page `ph`, and its content satisfies `P`. -/
def WroteOne (old new : List Ev) (ph : Nat) (P : Page → Prop) : Prop :=
  ∃ p, writes new = writes old ++ [(ph, p)] ∧ P p

end Spec
