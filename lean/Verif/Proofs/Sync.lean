import Verif.Model.Sync
import Verif.Proofs.WriteFail
import Verif.Proofs.VarLife
import Verif.Proofs.VarWithin
import Verif.Proofs.RlcPut
import Verif.Proofs.Always
import Verif.Proofs.IdxScan

/-! Helper lemmas: which operations have reached the medium. -/

namespace EDB

variable {c : Cfg}

theorem cleanStep_wbuf {d d' : Data} (h : cleanStep c d = .ok d') : d'.wbuf = d.wbuf := by
  unfold cleanStep at h
  split_ifs at h <;> cases h <;> rfl

theorem shiftRlc_wbuf {d d' : Data} (h : shiftRlc c d = .ok d') : d'.wbuf = d.wbuf := by
  unfold shiftRlc at h
  simp only at h
  split_ifs at h with h1 h2
  · obtain ⟨d1, e1, e2⟩ := Res.bind_eq_ok h
    cases e2
    have := cleanStep_wbuf e1
    exact this
  · cases h; rfl
  · cases h; rfl
  · cases h; rfl

theorem writeTemp_count (d : Data) : pageCount (writeTemp c d).1.wbuf = pageCount d.wbuf :=
  outPage_count c d

theorem finishPut_count (hL : c.Layout) {d : Data} {w : Bool} {key : Nat} {data : List Byte} {loc : Nat} {r : Data × Int × Bool}
    (hd : data.length = c.dataSize) (hn : pageCount d.wbuf < 65535) (h : finishPut c d w key data loc = .ok r) : pageCount r.1.wbuf ≠ 0 := by
  have ha : pageCount (appendRec c d.wbuf key data loc) ≠ 0 := by rw [count_append hL _ _ _ _ hd hn]; omega
  unfold finishPut at h
  simp only at h
  split_ifs at h
  · obtain ⟨d1, e1, e2⟩ := Res.bind_eq_ok h
    cases e2
    rw [writeTemp_count, shiftRlc_wbuf e1]
    exact ha
  · cases h
    rw [writeTemp_count]
    exact ha
  · cases h; exact ha

/-- After an insert the write buffer is not empty, unless the insert was refused and changed nothing. -/
theorem putX_count (hL : c.Layout) (h16 : c.maxRec ≤ 65535) {d : Data} {x : Idx} {key : Nat} {data : List Byte} {loc : Nat}
    {r : Data × Idx × Int × Bool} (hd : data.length = c.dataSize) (h : putX c d x key data loc = .ok r) :
    pageCount r.1.wbuf ≠ 0 ∨ (r.1.dev = d.dev ∧ r.1.wbuf = d.wbuf ∧ r.2.1 = x) := by
  have hs := orderCheck_same (c := c) d key
  unfold putX at h
  rcases ho : orderCheck c d key with ⟨d1, ok⟩
  rw [ho] at h hs
  simp only at h hs
  split_ifs at h with h1 h2
  · obtain ⟨⟨d2, pn⟩, -, h⟩ := Res.bind_eq_ok h
    obtain ⟨x2, -, h⟩ := Res.bind_eq_ok h
    obtain ⟨⟨d3, r3, w3⟩, e3, h⟩ := Res.bind_eq_ok h
    cases h
    exact .inl (finishPut_count hL hd (by show pageCount (initPage c) < 65535; rw [pageCount_initPage]; omega) e3)
  · obtain ⟨⟨d2, pn⟩, -, h⟩ := Res.bind_eq_ok h
    obtain ⟨x2, -, h⟩ := Res.bind_eq_ok h
    obtain ⟨⟨d3, r3, w3⟩, e3, h⟩ := Res.bind_eq_ok h
    cases h
    exact .inl (finishPut_count hL hd (by show pageCount (initPage c) < 65535; rw [pageCount_initPage]; omega) e3)
  · obtain ⟨⟨d3, r3, w3⟩, e3, h⟩ := Res.bind_eq_ok h
    cases h
    exact .inl (finishPut_count hL hd (by omega) e3)
  · cases h
    exact .inr ⟨hs.dev, hs.wbuf, rfl⟩

/-- Everything is on the medium when the write buffer is empty. -/
def SyncInv (c : Cfg) (d : Data) (x : Idx) (s : Synced) : Prop :=
  pageCount d.wbuf = 0 → s.data = d.dev.log.length ∧ (c.useIndex = true → s.idx = x.dev.log.length)

theorem syncVar_rest (fl : StFile → Bool) (v : Var) (s : Synced) :
    (syncVar c fl v s).data = s.data ∧ (syncVar c fl v s).idx = s.idx := by
  unfold syncVar
  by_cases h : v.loc % c.pageSize = c.vhdr
  · rw [if_pos h]; exact ⟨rfl, rfl⟩
  · rw [if_neg h]
    rcases writeVar c v with ⟨v1, _ | n⟩
    · exact ⟨rfl, rfl⟩
    · by_cases h2 : fl .var = true <;> simp [h2]

theorem syncPut_rest {fl : StFile → Bool} {d : Data} {x : Idx} {v : Var} {key : Nat} {data : List Byte} {vd : Option (List Byte)}
    {s s' : Synced} (h : syncPut c fl d x v key data vd s = .ok s') : s'.data = s.data ∧ s'.idx = s.idx := by
  unfold syncPut at h
  split_ifs at h
  · cases vd with
    | none => cases h; exact ⟨rfl, rfl⟩
    | some bs =>
      obtain ⟨⟨d1, x1, r1, w1⟩, -, h⟩ := Res.bind_eq_ok h
      simp only at h
      split_ifs at h
      · cases h; exact ⟨rfl, rfl⟩
      · obtain ⟨v1, -, h⟩ := Res.bind_eq_ok h
        cases h
        exact syncVar_rest _ _ _
  · cases h; exact ⟨rfl, rfl⟩

theorem syncGet_rest {fl : StFile → Bool} {d : Data} {v : Var} {key : Nat} {s s' : Synced} (h : syncGet c fl d v key s = .ok s') :
    s'.data = s.data ∧ s'.idx = s.idx := by
  unfold syncGet at h
  by_cases hu : c.useVdata = true
  · rw [if_pos hu] at h
    obtain ⟨⟨r, o⟩, -, h⟩ := Res.bind_eq_ok h
    cases h
    split_ifs
    · exact syncVar_rest _ _ _
    · exact ⟨rfl, rfl⟩
  · rw [if_neg hu] at h
    cases h
    exact ⟨rfl, rfl⟩

theorem syncNext_rest {fl : StFile → Bool} {d : Data} {x : Idx} {v : Var} {it : Iter} {s s' : Synced}
    (h : syncNext c fl d x v it s = .ok s') : s'.data = s.data ∧ s'.idx = s.idx := by
  unfold syncNext at h
  by_cases hu : c.useVdata = true
  · rw [if_pos hu] at h
    obtain ⟨⟨d1, x1, it1, o1⟩, -, h⟩ := Res.bind_eq_ok h
    cases o1 with
    | none => cases h; exact ⟨rfl, rfl⟩
    | some r =>
      cases h
      split_ifs
      · exact syncVar_rest _ _ _
      · exact ⟨rfl, rfl⟩
  · rw [if_neg hu] at h
    cases h
    exact ⟨rfl, rfl⟩

theorem writePage_count {d d1 : Data} {pn : Option Nat} (h : writePage c d = .ok (d1, pn)) : pageCount d1.wbuf = pageCount d.wbuf := by
  rcases writePage_wrote h with ⟨-, e, -⟩ | ⟨-, e, -⟩ <;> rw [e, outPage_count c]

/-- A flush: what is on the medium afterwards, if it returns 0 and what holds if it does not. -/
theorem flushX_sync {fl : StFile → Bool} (hd : fl .data = true) (hi : c.useIndex = true → fl .idx = true) {d : Data} {x : Idx} {v : Var}
    {s s' : Synced} {r : Data × Idx × Int × Bool} (I : SyncInv c d x s) (h1 : syncFlush c fl d x v s = .ok s') (h2 : flushX c d x = .ok r) :
    (r.2.2.1 = 0 → pageCount r.1.wbuf = 0 ∧ s'.data = r.1.dev.log.length ∧ (c.useIndex = true → s'.idx = r.2.1.dev.log.length)) ∧
    (r.2.2.1 ≠ 0 → pageCount r.1.wbuf ≠ 0) := by
  unfold syncFlush at h1
  unfold flushX at h2
  by_cases h0 : pageCount d.wbuf < 1
  · rw [if_pos h0] at h1 h2
    cases h1; cases h2
    have : pageCount d.wbuf = 0 := by omega
    exact ⟨fun _ => ⟨this, I this⟩, fun h => absurd rfl h⟩
  · rw [if_neg h0] at h1 h2
    obtain ⟨⟨d1, pn⟩, e1, h1⟩ := Res.bind_eq_ok h1
    obtain ⟨⟨d1', pn'⟩, e2, h2⟩ := Res.bind_eq_ok h2
    rw [e1] at e2
    cases e2
    have hc := writePage_count e1
    cases pn with
    | none =>
      cases h2
      exact ⟨fun h => absurd h (by simp), fun _ => by show pageCount d1.wbuf ≠ 0; omega⟩
    | some n =>
      simp only [hd, if_true] at h1 h2
      have hip := indexPage_same (c := c) d1 (some n)
      by_cases hx : c.useIndex = true
      · simp only [hx, if_true] at h1 h2
        obtain ⟨⟨x1, ok⟩, e3, h1⟩ := Res.bind_eq_ok h1
        obtain ⟨⟨x1', ok'⟩, e4, h2⟩ := Res.bind_eq_ok h2
        rw [e3] at e4
        cases e4
        cases ok with
        | false =>
          cases h2
          exact ⟨fun h => absurd h (by simp), fun _ => by show pageCount (indexPage c d1 (some n)).wbuf ≠ 0; rw [hip.2]; omega⟩
        | true =>
          simp only [if_true, hi hx] at h1 h2
          cases h2
          cases h1
          refine ⟨fun _ => ⟨pageCount_initPage c, ?_, fun _ => ?_⟩, fun h => absurd rfl h⟩
          · show _ = (indexPage c d1 (some n)).dev.log.length
            rw [hip.1]
            split_ifs
            · exact (syncVar_rest _ _ _).1
            · rfl
          · split_ifs
            · exact (syncVar_rest _ _ _).2
            · rfl
      · simp only [hx] at h1 h2
        cases h2
        cases h1
        refine ⟨fun _ => ⟨pageCount_initPage c, ?_, fun h => absurd h hx⟩, fun h => absurd rfl h⟩
        show _ = (indexPage c d1 (some n)).dev.log.length
        rw [hip.1]
        split_ifs
        · exact (syncVar_rest _ _ _).1
        · rfl

end EDB
