import Verif.Proofs.VarHist

/-! Helper lemmas: reading a stream in pieces. -/

namespace EDB

section
variable {c : Cfg} {v : Var} {s : List Byte}

theorem slice_sub {q n : Nat} {bs : List Byte} (h : slice s q n = bs) {p m : Nat} (hm : p + m ≤ n) :
    slice s (q + p) m = (bs.drop p).take m := by
  rw [← h]
  apply List.ext_getElem
  · simp [slice]; omega
  · intro i h1 h2
    simp only [slice, List.getElem_map, List.getElem_range, List.getElem_take, List.getElem_drop]
    rw [Nat.add_assoc]

theorem streamRead_done (hs : VSync v) {st : Stream} (h : st.total ≤ st.read) (n : Nat) :
    ∃ v', streamRead c v st n = .ok (v', st, []) ∧ VSame v v' ∧ VSync v' := by
  obtain ⟨r1, r2, -⟩ := readVar_sync hs (st.off / c.pageSize % c.numVar)
  refine ⟨_, ?_, r1, r2⟩
  unfold streamRead
  simp only
  split_ifs
  · rw [streamLoop, if_neg (by omega)]
  · rfl

theorem readChunks_ok (h : c.VFile) {q : Nat} {bs : List Byte} (hb : slice s q bs.length = bs) : ∀ (ns : List Nat) (v : Var) (st : Stream),
    VSync v → Holds c v s q bs.length → st.total = bs.length → st.read ≤ bs.length →
    (st.read < bs.length → At c st.off (q + st.read)) → Spec.NoEdge c.vcap (q % c.vcap) bs.length st.read ns →
    ∃ v' st', readChunks c v st ns = .ok (v', st', Spec.chop ns (bs.drop st.read)) := by
  intro ns
  induction ns with
  | nil => intro v st _ _ _ _ _ _; exact ⟨v, st, rfl⟩
  | cons n ns ih =>
    intro v st hs hH h1 h2 h3 h4
    obtain ⟨e1, e2⟩ := h4
    simp only [readChunks]
    by_cases hr : st.read < bs.length
    · have hmin : min n (st.total - st.read) = min n (bs.length - st.read) := by rw [h1]
      obtain ⟨v1, st1, r1, r2, r3, r4, r5, r6⟩ := streamRead_ok (len := n) h hs (h3 hr) (s := s) (fun j j1 j2 =>
        hH j (le_trans (Nat.div_le_div_right (by omega)) j1) (by rw [hmin] at j2; omega))
      rw [hmin] at r1 r5 r6
      obtain ⟨v', st', q1⟩ := ih v1 st1 r3 (hH.same r2) (by omega) (by omega) (by
        intro hlt
        rw [r5] at hlt ⊢
        rcases r6 with h6 | ⟨h6, h7⟩
        · rw [← Nat.add_assoc]; exact h6
        · exact absurd (by rw [← h7, Nat.mod_add_mod, Nat.add_assoc]) (e1 h6 hlt)) (by rw [r5]; exact e2)
      rw [r1]
      simp only [Res.ok_bind]
      rw [q1]
      simp only [Res.ok_bind]
      refine ⟨v', st', ?_⟩
      rw [slice_sub hb (by omega), r5]
      have k1 : List.take (min n (bs.length - st.read)) (List.drop st.read bs) = List.take n (List.drop st.read bs) := by
        rw [← List.length_drop, ← List.take_take, List.take_length]
      have k2 : List.drop (st.read + min n (bs.length - st.read)) bs = List.drop n (List.drop st.read bs) := by
        rw [List.drop_drop]
        by_cases hn : n ≤ bs.length - st.read
        · rw [Nat.min_eq_left hn]
        · rw [List.drop_eq_nil_of_le (by omega), List.drop_eq_nil_of_le (by omega)]
      rw [k1, k2]
      rfl
    · have hz : min n (bs.length - st.read) = 0 := by omega
      rw [hz] at e2
      obtain ⟨v1, r1, r2, r3⟩ := streamRead_done (c := c) hs (st := st) (by omega) n
      obtain ⟨v', st', q1⟩ := ih v1 st r3 (hH.same r2) h1 h2 h3 e2
      rw [r1]
      simp only [Res.ok_bind]
      rw [q1]
      simp only [Res.ok_bind]
      refine ⟨v', st', ?_⟩
      rw [List.drop_eq_nil_of_le (by omega)]
      simp [Spec.chop]

end

end EDB
