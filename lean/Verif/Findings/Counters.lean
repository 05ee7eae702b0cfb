import Verif.Props.Counters

/-! # C75: where the statistics do not count -/

namespace EDB

/-- The counter of page writes does not count the temporary pages that record-level consistency writes. -/
theorem C75_false_temp :
    ¬ ∀ (s : StatState) (as : List Access), noReset as →
      (s.resetStats.accesses as).1.cnt.numWrites =
        Spec.okWrites [.data, .var] (s.resetStats.accesses as).2 % 2 ^ 32 := by
  intro h
  have := h ⟨⟨0, 0, 0, 0, 0⟩, none, none, none⟩ [.temp true] (by intro a ha; simp at ha; subst ha; decide)
  revert this
  decide

/-- Opening a table with variable data leaves in the counters what the memory held. -/
theorem C75_false_start :
    ¬ ∀ (vdata : Bool) (junk : Counters) (init : List Access),
      (initStats vdata junk init).cnt = ⟨0, 0, 0, 0, 0⟩ := by
  intro h
  exact absurd (h true ⟨7, 0, 0, 0, 0⟩ []) (by decide)

end EDB
