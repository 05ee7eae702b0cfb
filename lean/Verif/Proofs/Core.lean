import Verif.Proofs.Always

/-! Helper lemmas: what does not depend on the read cache.  `clr d` forgets the cached page; a state `d` for which
`clr d` represents a log has the right storage content even if its cache is stale. -/

namespace EDB

open Spec (Log Range Op Out)

/-- Forget the cached page. -/
def clr (d : Data) : Data := { d with buffered := none }

section
variable {c : Cfg} {lo K a m : Nat} {L : Log}

theorem clr_sealed (d : Data) : clr (sealed c d) = sealed c (clr d) := rfl

theorem clr_accepted (d : Data) (key : Nat) (data : List Byte) (loc : Nat) :
    clr (accepted c d key data loc) = accepted c (clr d) key data loc := by
  unfold accepted
  by_cases h : pageCount d.wbuf ≥ c.maxRec
  · rw [if_pos h, if_pos (show pageCount (clr d).wbuf ≥ c.maxRec from h)]; rfl
  · rw [if_neg h, if_neg (show ¬ pageCount (clr d).wbuf ≥ c.maxRec from h)]; rfl

theorem Sim.clr {d : Data} (S : Sim c lo K a d L) : Sim c lo K a (clr d) L :=
  S.congr_cache (d' := EDB.clr d) ⟨rfl, rfl, rfl, rfl, rfl, rfl, rfl, rfl⟩ (by intro ph h; simp [EDB.clr] at h) (by intro ph h; simp [EDB.clr] at h)

theorem Sim.clr_congr {d d' : Data} (S : Sim c lo K a (EDB.clr d) L) (E : SameButCache d d') : Sim c lo K a (EDB.clr d') L :=
  S.congr_cache (d' := EDB.clr d') ⟨E.dev, E.wbuf, E.next, E.min, E.avail, E.spl, E.rlcNext, E.rlcStart⟩
    (by intro ph h; simp [EDB.clr] at h) (by intro ph h; simp [EDB.clr] at h)

theorem TableM.clr {d : Data} (T : TableM c lo K m d L) : TableM c lo K m (EDB.clr d) L :=
  ⟨T.sim.clr, ⟨T.room.dvd, T.room.sum⟩, T.cap, T.tight⟩

theorem TableM.clr_congr {d d' : Data} (T : TableM c lo K m (EDB.clr d) L) (E : SameButCache d d') :
    TableM c lo K m (EDB.clr d') L :=
  T.congr ⟨E.dev, E.wbuf, E.next, E.min, E.avail, E.spl, E.rlcNext, E.rlcStart⟩ (T.sim.clr_congr E)

theorem TableM.core_accepted (hok : c.Ok K) (hs : m = 0 ∨ c.maxErr ≤ 1) {P : Nat} (hB : Bounds c lo K P) {d : Data} (T : TableM c lo K m (EDB.clr d) L)
    (hP : d.next + 1 ≤ P) {key : Nat} {data : List Byte} (loc : Nat) (hd : data.length = c.dataSize) (hlo : lo ≤ key)
    (hk : key < K) (hgt : ∀ r ∈ L.all, r.1 < key) :
    TableM c lo K m (EDB.clr (accepted c d key data loc)) (L.put c.maxRec (key, data)) := by
  rw [clr_accepted]
  obtain ⟨h1, h2⟩ := T.sim.accepted hok hB hs T.room hP loc hd hlo hk hgt (by simp [EDB.clr])
  refine ⟨h1, h2, T.cap.put hok.cap _, ?_⟩
  unfold accepted
  simp only
  split_ifs
  · exact tight_sealed hok.B0 T.tight
  · exact T.tight

theorem TableM.core_flush (hok : c.Ok K) (hs : m = 0 ∨ c.maxErr ≤ 1) {P : Nat} (hB : Bounds c lo K P) {d : Data} (T : TableM c lo K m (EDB.clr d) L)
    (hP : d.next + 1 ≤ P) :
    ∃ d', flushD c d = .ok (d', 0, decide (L.buf ≠ [])) ∧ TableM c lo K m (EDB.clr d') L.flush ∧
      d' = (if L.buf = [] then d else EDB.sealed c d) := by
  have hcount : pageCount d.wbuf = L.buf.length := by rw [← T.sim.buf, recs_length]; rfl
  obtain ⟨d1, w, h1, h2, h3, h4, h5⟩ := flush_ok hok hB hs T.sim T.room T.cap hP (by simp [EDB.clr])
  rw [flushD_eq hok.io hok.spline]
  by_cases hb : L.buf = []
  · rw [hb, List.length_nil] at hcount
    rw [if_pos (by omega)]
    refine ⟨d, by simp [hb], ?_, by simp [hb]⟩
    unfold Log.flush
    rw [if_pos hb]; exact T
  · have : L.buf.length ≠ 0 := fun h => hb (List.length_eq_zero_iff.mp h)
    rw [if_neg (by omega)]
    refine ⟨EDB.sealed c d, by simp [hb], ?_, by simp [hb]⟩
    rw [if_neg hb] at h5
    rw [clr_sealed, ← h5]
    refine ⟨h2, h3, h4, ?_⟩
    rw [h5]
    exact tight_sealed hok.B0 T.tight

/-- One operation of an ascending client, whatever the cache holds. -/
theorem TableM.core_step (hok : c.Ok K) (hs : m = 0 ∨ c.maxErr ≤ 1) {P : Nat} (hB : Bounds c lo K P) {d d' : Data} {x x' : Idx} {op : Op} {o : Out}
    (T : TableM c lo K m (EDB.clr d) L) (hP : d.next + 1 ≤ P)
    (hput : ∀ k v, op = .put k v → lo ≤ k ∧ k < K ∧ v.length = c.dataSize ∧ ∀ r ∈ L.all, r.1 < k)
    (e : step c d x op = .ok (d', x', o)) :
    (∃ k v, op = .put k v ∧ o = .code 0 ∧ TableM c lo K m (EDB.clr d') (L.put c.maxRec (k, v))) ∨
    (∃ k v, op = .put k v ∧ o = .code 1 ∧ TableM c lo K m (EDB.clr d') L) ∨
    (op = .flush ∧ o = .code 0 ∧ TableM c lo K m (EDB.clr d') L.flush) ∨
    (op.isRead ∧ TableM c lo K m (EDB.clr d') L) := by
  cases op with
  | put k v =>
    obtain ⟨h1, h2, h3, h4⟩ := hput k v rfl
    have E := orderCheck_same (c := c) d k
    simp only [step] at e
    rw [putD_eq hok] at e
    split_ifs at e
    · simp only [Res.ok_bind, Res.ok.injEq, Prod.mk.injEq] at e
      obtain ⟨rfl, _, rfl⟩ := e
      exact Or.inl ⟨k, v, rfl, rfl, (T.clr_congr E).core_accepted hok hs hB (by rw [E.next]; exact hP) 0 h3 h1 h2 h4⟩
    · simp only [Res.ok_bind, Res.ok.injEq, Prod.mk.injEq] at e
      obtain ⟨rfl, _, rfl⟩ := e
      exact Or.inr (Or.inl ⟨k, v, rfl, rfl, T.clr_congr E⟩)
  | flush =>
    obtain ⟨d1, h1, h2, _⟩ := T.core_flush hok hs hB hP
    simp only [step] at e
    rw [h1] at e
    simp only [Res.ok_bind, Res.ok.injEq, Prod.mk.injEq] at e
    obtain ⟨rfl, _, rfl⟩ := e
    exact Or.inr (Or.inr (Or.inl ⟨rfl, rfl, h2⟩))
  | get k =>
    simp only [step] at e
    obtain ⟨⟨d1, r, out⟩, h1, e⟩ := Res.bind_eq_ok e
    cases e
    exact Or.inr (Or.inr (Or.inr ⟨trivial, T.clr_congr (get_same h1)⟩))
  | scan q =>
    simp only [step] at e
    obtain ⟨⟨d1, x1, rs⟩, h1, e⟩ := Res.bind_eq_ok e
    cases e
    exact Or.inr (Or.inr (Or.inr ⟨trivial, T.clr_congr (scanAll_same h1)⟩))

/-- Clients that insert ascending keys and well-sized data; nothing is required of their reads. -/
structure Writer (c : Cfg) (lo K : Nat) (ops : List Op) : Prop where
  asc : (Spec.offered ops).Pairwise (· < ·)
  put : ∀ k v, Op.put k v ∈ ops → lo ≤ k ∧ k < K ∧ v.length = c.dataSize

theorem Writer.tail {op : Op} {ops : List Op} (h : Writer c lo K (op :: ops)) : Writer c lo K ops where
  asc := by
    have := h.asc
    cases op with
    | put k v => exact (List.pairwise_cons.mp this).2
    | flush => exact this
    | get k => exact this
    | scan q => exact this
  put k v hm := h.put k v (List.mem_cons_of_mem _ hm)

theorem Client.writer {ops : List Op} (h : Client c lo K ops) : Writer c lo K ops := ⟨h.asc, h.put⟩

/-- Whatever the cache did on the way, the storage represents the log of accepted records. -/
theorem core_ok (hok : c.Ok K) (hs : m = 0 ∨ c.maxErr ≤ 1) {P : Nat} (hB : Bounds c lo K P) :
    ∀ (ops : List Op) (d d' : Data) (x x' : Idx) (L : Log), TableM c lo K m (EDB.clr d) L → d.next + ops.length ≤ P →
      Writer c lo K ops → (∀ r ∈ L.all, ∀ k ∈ Spec.offered ops, r.1 < k) → runOps c d x ops = .ok (d', x') →
      TableM c lo K m (EDB.clr d') (Spec.logAfter c.maxRec L (history c d x ops)) ∧ d'.next ≤ d.next + ops.length := by
  intro ops
  induction ops with
  | nil =>
    intro d d' x x' L T _ _ _ e
    simp only [runOps, Res.ok.injEq, Prod.mk.injEq] at e
    obtain ⟨rfl, _⟩ := e
    exact ⟨T, by simp⟩
  | cons op ops ih =>
    intro d d' x x' L T hP W hgt e
    rw [List.length_cons] at hP ⊢
    unfold runOps at e
    obtain ⟨⟨d1, x1, o⟩, h1, e2⟩ := Res.bind_eq_ok e
    simp only at e2
    unfold history
    rw [h1]
    simp only
    have hn : d.next = L.pages.length := T.sim.next
    rcases T.core_step hok hs hB (by omega) (by
        intro k v hop
        subst hop
        obtain ⟨h2, h3, h4⟩ := W.put k v (by simp)
        exact ⟨h2, h3, h4, fun r hr => hgt r hr k (by simp [Spec.offered])⟩) h1 with
      ⟨k, v, rfl, rfl, T'⟩ | ⟨k, v, rfl, rfl, T'⟩ | ⟨rfl, rfl, T'⟩ | ⟨hr, T'⟩
    · have hn' : d1.next = _ := T'.sim.next
      have hp := Log_put_pages (L := L) c.maxRec (k, v)
      have hasc := List.pairwise_cons.mp W.asc
      obtain ⟨f1, f2⟩ := ih d1 d' x1 x' _ T' (by omega) W.tail (by
        intro r hr k' hk'
        rw [Log_put_all] at hr
        rcases List.mem_append.mp hr with h | h
        · exact hgt r h k' (by simp [Spec.offered, hk'])
        · rw [List.mem_singleton.mp h]; exact hasc.1 k' hk') e2
      exact ⟨f1, by omega⟩
    · have hn' : d1.next = _ := T'.sim.next
      obtain ⟨f1, f2⟩ := ih d1 d' x1 x' _ T' (by omega) W.tail
        (fun r hr k' hk' => hgt r hr k' (by simp [Spec.offered, hk'])) e2
      refine ⟨?_, by omega⟩
      simpa [Spec.logAfter] using f1
    · have hn' : d1.next = _ := T'.sim.next
      have hp := Log_flush_pages (L := L)
      obtain ⟨f1, f2⟩ := ih d1 d' x1 x' _ T' (by omega) W.tail (by
        intro r hr k' hk'
        rw [Log_flush_all] at hr
        exact hgt r hr k' hk') e2
      exact ⟨f1, by omega⟩
    · have hn' : d1.next = _ := T'.sim.next
      cases op with
      | put k v => simp [Op.isRead] at hr
      | flush => simp [Op.isRead] at hr
      | get k =>
        obtain ⟨f1, f2⟩ := ih d1 d' x1 x' _ T' (by omega) W.tail hgt e2
        exact ⟨f1, by omega⟩
      | scan q =>
        obtain ⟨f1, f2⟩ := ih d1 d' x1 x' _ T' (by omega) W.tail hgt e2
        exact ⟨f1, by omega⟩

end

end EDB
