import Verif.Model.Var
import Verif.Spec.Report
import Verif.Props.Storage

/-! # Which pages a flush has written when storage operations fail -/

namespace EDB

section
variable {c : Cfg}

theorem WroteOne.ne {old new : List Ev} {ph : Nat} {P : Page → Prop} (h : Spec.writes new = Spec.writes old) : ¬ Spec.WroteOne old new ph P := by
  rintro ⟨p, hp, -⟩
  have := congrArg List.length (h.symm.trans hp)
  simp at this

/-- What `writePage` did. -/
theorem writePage_wrote {d d1 : Data} {pn : Option Nat} (h1 : writePage c d = .ok (d1, pn)) :
    (pn = some d.next ∧ d1.wbuf = outPage d ∧ Spec.writes d1.dev.log = Spec.writes d.dev.log ++ [(d.next % c.N, outPage d)]) ∨
    (pn = none ∧ d1.wbuf = outPage d ∧ Spec.writes d1.dev.log = Spec.writes d.dev.log) := by
  unfold writePage at h1
  simp only at h1
  by_cases ha : d.avail = 0
  · rw [if_pos ha] at h1
    by_cases he : c.ioOk d.dev.reqs = true
    · simp only [Dev.erase, he, if_true] at h1
      obtain ⟨d2, h2, h1⟩ := Res.bind_eq_ok h1
      have h3 : d2.dev = (d.dev.erase c (d.next % c.N) (d.next % c.N + c.B)).1 ∧ d2.wbuf = outPage d := by
        unfold cleanStep at h2
        split_ifs at h2 <;> cases h2 <;> exact ⟨by simp [Dev.erase, he], rfl⟩
      have h4 : Spec.writes d2.dev.log = Spec.writes d.dev.log := by
        rw [h3.1]; simp [Dev.erase, he, writes_append, Spec.writes]
      by_cases hw : c.ioOk d2.dev.reqs = true
      · simp only [Dev.write, hw, if_true] at h1
        cases h1
        left
        exact ⟨rfl, h3.2, by simp [writes_append, Spec.writes, h4, h3.2]⟩
      · simp only [Dev.write, hw, Bool.false_eq_true, if_false] at h1
        cases h1
        exact Or.inr ⟨rfl, h3.2, h4⟩
    · simp only [Dev.erase, he, Bool.false_eq_true, if_false] at h1
      cases h1
      exact Or.inr ⟨rfl, rfl, rfl⟩
  · rw [if_neg ha] at h1
    by_cases hw : c.ioOk d.dev.reqs = true
    · simp only [Dev.write, hw, if_true] at h1
      cases h1
      left
      exact ⟨rfl, rfl, by simp [writes_append, Spec.writes, outPage]⟩
    · simp only [Dev.write, hw, Bool.false_eq_true, if_false] at h1
      cases h1
      exact Or.inr ⟨rfl, rfl, rfl⟩

/-- What `writeIndexPage` did. -/
theorem writeIdx_wrote {x x1 : Idx} {pn : Option Nat} (h1 : writeIdx c x = (x1, pn)) :
    (pn = some x.next ∧ Spec.writes x1.dev.log = Spec.writes x.dev.log ++ [(x.next % c.numIdx, wr x.wbuf 0 (leBytes 4 x.next))]) ∨
    (pn = none ∧ Spec.writes x1.dev.log = Spec.writes x.dev.log) := by
  unfold writeIdx at h1
  simp only at h1
  by_cases ha : x.avail = 0
  · rw [if_pos ha] at h1
    by_cases he : c.ioOk x.dev.reqs = true
    · simp only [Dev.erase, he, if_true] at h1
      by_cases hw : c.ioOk (x.dev.reqs + 1) = true
      · simp only [Dev.write, hw, if_true] at h1
        cases h1
        left
        exact ⟨rfl, by simp [writes_append, Spec.writes]⟩
      · simp only [Dev.write, hw, Bool.false_eq_true, if_false] at h1
        cases h1
        exact Or.inr ⟨rfl, by simp [writes_append, Spec.writes]⟩
    · simp only [Dev.erase, he, Bool.false_eq_true, if_false] at h1
      cases h1
      exact Or.inr ⟨rfl, rfl⟩
  · rw [if_neg ha] at h1
    by_cases hw : c.ioOk x.dev.reqs = true
    · simp only [Dev.write, hw, if_true] at h1
      cases h1
      left
      exact ⟨rfl, by simp [writes_append, Spec.writes]⟩
    · simp only [Dev.write, hw, Bool.false_eq_true, if_false] at h1
      cases h1
      exact Or.inr ⟨rfl, rfl⟩

/-- The index part of a flush. -/
theorem idxFlush_wrote {x x1 : Idx} {bm : List Byte} {ok : Bool} (hb : bm.length = c.bitmapSize) (h : idxFlush c x bm = .ok (x1, ok)) :
    (ok = true ∧ Spec.WroteOne x.dev.log x1.dev.log (x.next % c.numIdx)
      (fun p => rd p (16 + c.bitmapSize * pageCount x.wbuf) c.bitmapSize = bm)) ∨
    (ok = false ∧ Spec.writes x1.dev.log = Spec.writes x.dev.log) := by
  unfold idxFlush at h
  obtain ⟨x2, h2, h⟩ := Res.bind_eq_ok h
  unfold idxAppend at h2
  simp only at h2
  split_ifs at h2
  cases h2
  cases hw : writeIdx c { x with wbuf := wr (incCount x.wbuf) (16 + c.bitmapSize * pageCount x.wbuf) bm } with
  | mk x3 pn =>
    rw [hw] at h
    rcases writeIdx_wrote hw with ⟨rfl, e⟩ | ⟨rfl, e⟩
    · cases h
      left
      refine ⟨rfl, _, e, ?_⟩
      show rd (wr (wr (incCount x.wbuf) (16 + c.bitmapSize * pageCount x.wbuf) bm) 0 (leBytes 4 x.next)) _ _ = bm
      rw [rd_wr_disj _ _ _ _ _ (Or.inr (by rw [leBytes_length]; omega)), rd_wr_same _ _ _ hb]
    · cases h
      exact Or.inr ⟨rfl, e⟩

theorem readVar_dev (v : Var) (ph : Nat) : (readVar v ph).1.dev = v.dev ∧ (readVar v ph).1.wbuf = v.wbuf ∧ (readVar v ph).1.next = v.next := by
  unfold readVar
  split_ifs
  · exact ⟨rfl, rfl, rfl⟩
  · cases v.dev.file ph <;> exact ⟨rfl, rfl, rfl⟩

theorem storeVar_wrote {v v1 : Var} {pn : Option Nat} (h1 : storeVar c v = (v1, pn)) :
    (pn = some v.next ∧ Spec.writes v1.dev.log = Spec.writes v.dev.log ++ [(v.next % c.numVar, wr v.wbuf 0 (leBytes 4 v.next))]) ∨
    (pn = none ∧ Spec.writes v1.dev.log = Spec.writes v.dev.log) := by
  unfold storeVar at h1
  simp only at h1
  by_cases hw : c.ioOk v.dev.reqs = true
  · simp only [Dev.write, hw, if_true] at h1
    cases h1
    left
    exact ⟨rfl, by simp [writes_append, Spec.writes]⟩
  · simp only [Dev.write, hw, Bool.false_eq_true, if_false] at h1
    cases h1
    exact Or.inr ⟨rfl, rfl⟩

/-- What `writeVariablePage` did. -/
theorem writeVar_wrote {v v1 : Var} {pn : Option Nat} (h1 : writeVar c v = (v1, pn)) :
    (pn = some v.next ∧ Spec.writes v1.dev.log = Spec.writes v.dev.log ++ [(v.next % c.numVar, wr v.wbuf 0 (leBytes 4 v.next))]) ∨
    (pn = none ∧ Spec.writes v1.dev.log = Spec.writes v.dev.log) := by
  have hes : ∀ lo hi, Spec.writes (v.dev.erase c lo hi).1.log = Spec.writes v.dev.log := by
    intro lo hi
    unfold Dev.erase
    split_ifs <;> simp [writes_append, Spec.writes]
  unfold writeVar at h1
  simp only at h1
  by_cases ha : v.avail = 0
  · rw [if_pos ha] at h1
    have he := hes (v.next % c.numVar) (v.next % c.numVar + c.B)
    cases hd : v.dev.erase c (v.next % c.numVar) (v.next % c.numVar + c.B) with
    | mk dv e =>
      rw [hd] at h1 he
      simp only at h1 he
      obtain ⟨r1, r2, r3⟩ := readVar_dev { v with dev := dv, avail := v.avail + c.B } ((v.next % c.numVar + c.B - 1) % c.numVar)
      split_ifs at h1
      · have := storeVar_wrote h1
        simp only [r1, r2, r3, he] at this
        exact this
      · cases h1
        exact Or.inr ⟨rfl, by rw [r1, he]⟩
      · cases h1
        exact Or.inr ⟨rfl, he⟩
  · rw [if_neg ha] at h1
    exact storeVar_wrote h1

/-- What `embedDBFlushVar` did. -/
theorem flushVar_wrote {v v1 : Var} {r : Int} (hn : v.loc % c.pageSize ≠ c.vhdr) (h : flushVar c v = (v1, r)) :
    (r = 0 ∧ Spec.WroteOne v.dev.log v1.dev.log (v.next % c.numVar) (fun p => ∀ i, 4 ≤ i → p i = v.wbuf i)) ∨
    (r = -1 ∧ Spec.writes v1.dev.log = Spec.writes v.dev.log) := by
  unfold flushVar at h
  rw [if_neg hn] at h
  cases hw : writeVar c v with
  | mk v2 pn =>
    rw [hw] at h
    rcases writeVar_wrote hw with ⟨rfl, e⟩ | ⟨rfl, e⟩
    · cases h
      exact Or.inl ⟨rfl, _, e, fun i hi => wr_apply_out _ _ _ _ (by rw [leBytes_length]; omega)⟩
    · cases h
      exact Or.inr ⟨rfl, e⟩

theorem indexPage_same (d : Data) (pn : Option Nat) : (indexPage c d pn).dev = d.dev ∧ (indexPage c d pn).wbuf = d.wbuf := by
  unfold indexPage
  split_ifs <;> exact ⟨rfl, rfl⟩

end

end EDB
