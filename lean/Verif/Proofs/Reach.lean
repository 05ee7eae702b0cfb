import Verif.Proofs.Table

/-! Helper lemmas: which histories keep the read cache safe. -/

namespace EDB

open Spec (Log Range Op Out)

section
variable {c : Cfg} {lo K : Nat} {L : Log}

theorem NoStale.head {d : Data} {x : Idx} {op : Op} {ops : List Op} (h : NoStale c d x (op :: ops)) :
    completes c d op → d.buffered ≠ some (d.next % c.N) := h.1

/-- Inserts, then flushes, then reads, with a state in which the cache is empty as long as pages may be completed. -/
def Phased (d : Data) (ops : List Op) : Prop :=
  ∃ ps fs rs, ops = ps ++ fs ++ rs ∧ (∀ op ∈ ps, op.isPut) ∧ (∀ op ∈ fs, op = .flush) ∧ (∀ op ∈ rs, op.isRead) ∧
    (ps ≠ [] ∨ fs ≠ [] → d.buffered = none) ∧ (ps ≠ [] → pageCount d.wbuf ≠ 0 ∨ d.next = 0)

theorem Phased.safe {d : Data} {op : Op} {ops : List Op} (h : Phased d (op :: ops)) (hc : completes c d op) :
    d.buffered ≠ some (d.next % c.N) := by
  obtain ⟨ps, fs, rs, e, h1, h2, h3, h4, h5⟩ := h
  have : ps ≠ [] ∨ fs ≠ [] := by
    rcases ps with _ | ⟨p, ps⟩
    · rcases fs with _ | ⟨f, fs⟩
      · rcases rs with _ | ⟨r, rs⟩
        · simp at e
        · simp only [List.nil_append, List.cons.injEq] at e
          have := h3 r (by simp)
          rw [← e.1] at this
          cases op <;> simp [Op.isRead, completes] at this hc
      · right; simp
    · left; simp
  rw [h4 this]
  simp

theorem accepted_buffered (d : Data) (key : Nat) (data : List Byte) (loc : Nat) :
    (accepted c d key data loc).buffered = d.buffered := by
  unfold accepted
  simp only
  split_ifs <;> rfl

theorem sealed_count (d : Data) : pageCount (sealed c d).wbuf = 0 := by
  have : recs c (sealed c d).wbuf = [] := recs_init c
  rw [← recs_length c, this]; rfl

theorem append_count (hok : c.Ok K) (p : Page) (key : Nat) (data : List Byte) (loc : Nat)
    (hd : data.length = c.dataSize) (hn : pageCount p < 65535) :
    pageCount (appendRec c p key data loc) = pageCount p + 1 := by
  rw [(appendRec_same hok.layout p key data loc hd).count, appendCore_count, Nat.mod_eq_of_lt (by omega)]

theorem accepted_count (hok : c.Ok K) (d : Data) (key : Nat) (data : List Byte) (loc : Nat)
    (hd : data.length = c.dataSize) :
    pageCount (accepted c d key data loc).wbuf =
      if pageCount d.wbuf ≥ c.maxRec then 1 else pageCount d.wbuf + 1 := by
  have h16 := hok.cap16
  unfold accepted
  simp only
  split_ifs with h
  · rw [append_count hok _ _ _ _ hd (by rw [sealed_count]; omega), sealed_count]
  · exact append_count hok _ _ _ _ hd (by omega)

/-- Without pages or with records in the buffer the order check reads no page. -/
theorem orderCheck_noread (d : Data) (key : Nat) (h : pageCount d.wbuf ≠ 0 ∨ d.next = 0) :
    (orderCheck c d key).1 = d := by
  unfold orderCheck
  simp only
  split_ifs with h1 h2
  · omega
  · rfl
  · rfl

theorem Phased.step (hok : c.Ok K) {d d' : Data} {x x' : Idx} {op : Op} {ops : List Op} {o : Out}
    (h : Phased d (op :: ops)) (C : Client c lo K (op :: ops)) (e : EDB.step c d x op = .ok (d', x', o)) :
    Phased d' ops := by
  obtain ⟨ps, fs, rs, eq, h1, h2, h3, h4, h5⟩ := h
  rcases ps with _ | ⟨p, ps⟩
  · rcases fs with _ | ⟨f, fs⟩
    · rcases rs with _ | ⟨r, rs⟩
      · simp at eq
      · simp only [List.nil_append, List.cons.injEq] at eq
        exact ⟨[], [], rs, by simp [eq.2], by simp, by simp, fun op h => h3 op (by simp [h]), by simp, by simp⟩
    · simp only [List.nil_append, List.cons_append, List.cons.injEq] at eq
      have hf := h2 f (by simp)
      rw [← eq.1] at hf
      subst hf
      refine ⟨[], fs, rs, by simp [eq.2], by simp, fun op h => h2 op (by simp [h]), h3, ?_, by simp⟩
      intro _
      have hb := h4 (Or.inr (by simp))
      simp only [EDB.step] at e
      rw [flushD_eq hok.io hok.spline] at e
      split_ifs at e
      · cases e; exact hb
      · cases e; exact hb
  · simp only [List.cons_append, List.cons.injEq] at eq
    have hp := h1 p (by simp)
    rw [← eq.1] at hp
    have hb := h4 (Or.inl (by simp))
    have hw := h5 (by simp)
    cases op with
    | put k v =>
      obtain ⟨_, _, hd⟩ := C.put k v (by simp)
      simp only [EDB.step] at e
      rw [putD_eq hok, orderCheck_noread d k hw] at e
      split_ifs at e
      · simp only [Res.ok_bind, Res.ok.injEq, Prod.mk.injEq] at e
        obtain ⟨e1, _, _⟩ := e
        subst e1
        refine ⟨ps, fs, rs, eq.2, fun op h => h1 op (by simp [h]), h2, h3, fun _ => ?_, fun _ => ?_⟩
        · rw [accepted_buffered]; exact hb
        · left; rw [accepted_count hok _ _ _ _ hd]; split_ifs <;> omega
      · simp only [Res.ok_bind, Res.ok.injEq, Prod.mk.injEq] at e
        obtain ⟨e1, _, _⟩ := e
        subst e1
        exact ⟨ps, fs, rs, eq.2, fun op h => h1 op (by simp [h]), h2, h3, fun _ => hb, fun _ => hw⟩
    | flush => simp [Op.isPut] at hp
    | get k => simp [Op.isPut] at hp
    | scan q => simp [Op.isPut] at hp

/-- While the pages fit into the file, nothing in the cache is overwritten. -/
theorem unwrapped_safe (hok : c.Ok K) {d : Data} {op : Op} (T : Table c lo K d L) (hc : completes c d op)
    (hl : (after c.maxRec L op).pages.length ≤ c.N) : d.buffered ≠ some (d.next % c.N) := by
  have hcount : pageCount d.wbuf = L.buf.length := by rw [← T.sim.buf, recs_length]
  have hn := T.sim.next
  have hcap := hok.cap
  have : d.next + 1 ≤ c.N := by
    cases op with
    | put k v =>
      simp only [completes] at hc
      simp only [after, Log.put] at hl
      rw [if_pos (by omega), List.length_append, List.length_singleton] at hl
      omega
    | flush =>
      simp only [completes] at hc
      simp only [after, Log.flush] at hl
      rw [if_neg (by intro h; rw [h] at hcount; simp at hcount; omega), List.length_append, List.length_singleton] at hl
      omega
    | get k => simp [completes] at hc
    | scan q => simp [completes] at hc
  intro hb
  have := T.sim.cacheN _ hb
  rw [Nat.mod_eq_of_lt (by omega)] at this
  omega

theorem Log_live_zero (l : Log) : l.live 0 = l.all := by unfold Log.live Log.all; simp

theorem NoStale.of_phased (hok : c.Ok K) : ∀ (ops : List Op) (d : Data) (x : Idx), Phased d ops → Client c lo K ops →
    NoStale c d x ops := by
  intro ops
  induction ops with
  | nil => intro d x _ _; exact trivial
  | cons op ops ih =>
    intro d x h C
    exact ⟨fun hc => h.safe hc, fun d' x' o e => ih d' x' (h.step hok C e) C.tail⟩

end

end EDB
