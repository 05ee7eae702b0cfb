import Verif.Proofs.Node
import Verif.Spec.Page

/-! Helper lemmas: the model's view of a page is the specification's. -/

namespace EDB

theorem recs_spec (c : Cfg) (p : Page) :
    recs c p = Spec.pageRecs c.hdr c.recSize c.keySize c.dataSize p := by
  unfold recs Spec.pageRecs pageCount
  rw [uval_eq]
  apply List.map_congr_left
  intro i _
  unfold slotKey slotData
  rw [uval_eq]
  have : slotOff c i = c.hdr + i * c.recSize := by unfold slotOff; rw [Nat.mul_comm, Nat.add_comm]
  rw [this]; rfl

theorem pageId_spec (p : Page) : pageId p = Spec.pageNo p := by
  unfold pageId Spec.pageNo; rw [uval_eq]; rfl

theorem sortedPage_iff (c : Cfg) (K : Nat) (p : Page) : SortedPage c K p ↔
    (recs c p).Pairwise (fun a b => a.1 < b.1) ∧ ∀ r ∈ recs c p, r.1 < K := by
  constructor
  · intro h
    constructor
    · rw [List.pairwise_iff_getElem]
      intro i j hi hj hij
      rw [recs_getElem, recs_getElem]
      exact h.asc i j hij (by rwa [recs_length] at hj)
    · intro r hr
      obtain ⟨i, hi, rfl⟩ := mem_recs.mp hr
      exact h.bound i hi
  · rintro ⟨h1, h2⟩
    constructor
    · intro i j hij hj
      have := List.pairwise_iff_getElem.mp h1 i j (by rw [recs_length]; omega) (by rw [recs_length]; omega) hij
      rwa [recs_getElem, recs_getElem] at this
    · intro i hi
      exact h2 _ (mem_recs.mpr ⟨i, hi, rfl⟩)

end EDB
