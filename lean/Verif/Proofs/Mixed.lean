import Verif.Model.Mixed
import Verif.Proofs.IdxScan

/-! Helper lemmas: iterators that stay open while the table grows. -/

namespace EDB

open Spec (Log Range Op Out MOp MOut Cursor setAt)

section
variable {c : Cfg} {lo K m : Nat} {L : Log}

/-! ### The records in front of an iterator -/

theorem rest_flush (L : Log) (pg slot : Nat) : rest L.flush pg slot = rest L pg slot := by
  unfold Log.flush
  split_ifs with h
  · rfl
  · unfold rest
    simp only
    rcases Nat.lt_or_ge L.pages.length pg with hp | hp
    · have h1 : (L.pages ++ [L.buf]).drop pg = [] := List.drop_eq_nil_of_le (by simp; omega)
      rw [h1]
      have h2 : (L.pages ++ [L.buf] ++ [[]]).drop pg = [[]] ∨ (L.pages ++ [L.buf] ++ [([] : List Spec.Rec)]).drop pg = [] := by
        rcases Nat.eq_or_lt_of_le hp with he | hl
        · left
          rw [← he, List.drop_append_of_le_length (by simp)]
          simp
        · right
          exact List.drop_eq_nil_of_le (by simp; omega)
      rcases h2 with h2 | h2 <;> rw [h2] <;> simp
    · rw [List.drop_append_of_le_length (by simp; omega)]
      obtain ⟨p, t, e⟩ : ∃ p t, (L.pages ++ [L.buf]).drop pg = p :: t := by
        cases h : (L.pages ++ [L.buf]).drop pg with
        | nil =>
          have := List.drop_eq_nil_iff.mp h
          simp at this
          omega
        | cons p t => exact ⟨p, t, rfl⟩
      rw [e]
      simp

/-- An inserted record appears at the end of what an iterator still has in front of it, if the iterator has not passed
the end. -/
theorem rest_put (cap : Nat) (L : Log) (r : Rec) (pg slot : Nat) (h1 : pg ≤ L.pages.length)
    (h2 : pg = L.pages.length → slot ≤ L.buf.length) : rest (L.put cap r) pg slot = rest L pg slot ++ [r] := by
  have hlast : ∀ b : List Rec, rest ⟨L.pages, b⟩ L.pages.length slot = b.drop slot := by
    intro b; unfold rest; simp
  have hcons : pg < L.pages.length → ∃ p t, L.pages.drop pg = p :: t := fun h => ⟨_, _, List.drop_eq_getElem_cons h⟩
  unfold Log.put
  split_ifs with hc
  · unfold rest
    simp only
    rw [List.drop_append_of_le_length (by simp; omega)]
    rcases Nat.eq_or_lt_of_le h1 with he | hl
    · rw [he]; simp
    · obtain ⟨p, t, e⟩ := hcons hl
      rw [List.drop_append_of_le_length (by omega), e]
      simp
  · rcases Nat.eq_or_lt_of_le h1 with he | hl
    · rw [he, hlast, List.drop_append_of_le_length (h2 he)]
      congr 1
      exact (hlast L.buf).symm
    · unfold rest
      simp only
      obtain ⟨p, t, e⟩ := hcons hl
      rw [List.drop_append_of_le_length (by omega), List.drop_append_of_le_length (by omega), e]
      simp

/-- In any case it adds at most this record. -/
theorem rest_put_suffix (cap : Nat) (L : Log) (r : Rec) (pg slot : Nat) :
    rest (L.put cap r) pg slot <:+ rest L pg slot ++ [r] := by
  by_cases h : pg ≤ L.pages.length ∧ (pg = L.pages.length → slot ≤ L.buf.length)
  · rw [rest_put cap L r pg slot h.1 h.2]
    exact List.suffix_refl _
  · rcases Nat.lt_or_ge L.pages.length pg with hp | hp
    · have h0 : rest L pg slot = [] := by
        unfold rest; rw [List.drop_eq_nil_of_le (by simp; omega)]
      rw [h0, List.nil_append]
      unfold Log.put
      split_ifs
      · unfold rest
        simp only
        rcases Nat.eq_or_lt_of_le hp with he | hl
        · rw [← he, List.drop_append_of_le_length (by simp)]
          rw [List.drop_eq_nil_of_le (show (L.pages ++ [L.buf]).length ≤ L.pages.length.succ by simp)]
          simpa using List.drop_suffix slot [r]
        · rw [List.drop_eq_nil_of_le (by simp; omega)]
          exact List.nil_suffix
      · unfold rest
        simp only
        rw [List.drop_eq_nil_of_le (by simp; omega)]
        exact List.nil_suffix
    · have he : pg = L.pages.length := by
        by_contra hne
        exact h ⟨hp, fun h => absurd h hne⟩
      have hs : L.buf.length < slot := by
        by_contra hle
        exact h ⟨hp, fun _ => by omega⟩
      by_cases hc : L.buf.length ≥ cap
      · unfold Log.put
        rw [if_pos hc, he]
        unfold rest
        simp
      · unfold Log.put
        rw [if_neg hc, he]
        unfold rest
        simp only [List.drop_left]
        rw [List.drop_eq_nil_of_le (by simp; omega)]
        exact List.nil_suffix

/-- The page of a record lies at or before any page that holds it. -/
theorem pageOf_le {pg : List Rec} {i : Nat} {r : Rec} (h : (L.pages ++ [L.buf])[i]? = some pg) (hr : r ∈ pg) :
    L.pageOf r.1 ≤ i := by
  unfold Log.pageOf
  obtain ⟨hi, e⟩ := List.getElem?_eq_some_iff.mp h
  by_contra hlt
  have := List.not_of_lt_findIdx (Nat.lt_of_not_le hlt)
  rw [e] at this
  have h2 : (pg.any fun s => s.1 == r.1) = true := List.any_eq_true.mpr ⟨r, hr, by simp⟩
  rw [h2] at this
  cases this

/-! ### Cursors -/

/-- The iterator does what the cursor promises. -/
structure CursorOk (c : Cfg) (K : Nat) (Q : Iter → Prop) (L : Log) (it : Iter) (k : Cursor) : Prop where
  keys : KeysOk K it.range
  qbm : Q it
  range : it.range = k.q
  pos : k.pos ≤ it.page
  live : k.over = false → Spec.scan c.cmpData k.q (rest L it.page it.slot) = k.rows ∧ it.page ≤ L.pages.length ∧
    (it.page = L.pages.length → it.slot ≤ L.buf.length)
  over : k.over = true → Spec.scan c.cmpData k.q (rest L it.page it.slot) <:+ k.rows

theorem scan_append (cmp : List Byte → List Byte → Int) (q : Range) (a b : List Rec) :
    Spec.scan cmp q (a ++ b) = Spec.scan cmp q a ++ Spec.scan cmp q b := List.filter_append ..

theorem CursorOk.put {Q : Iter → Prop} {it : Iter} {k : Cursor} (h : CursorOk c K Q L it k) (r : Rec) :
    CursorOk c K Q (L.put c.maxRec r) it (k.add c.cmpData r) := by
  refine ⟨h.keys, h.qbm, h.range, h.pos, ?_, ?_⟩
  · intro ho
    obtain ⟨h1, h2, h3⟩ := h.live ho
    refine ⟨?_, ?_⟩
    · show Spec.scan c.cmpData k.q _ = k.rows ++ Spec.scan c.cmpData k.q [r]
      rw [rest_put _ _ _ _ _ h2 h3, scan_append, h1]
    · unfold Log.put
      split_ifs
      · simp; omega
      · simp only [List.length_append, List.length_singleton]
        exact ⟨h2, fun e => by have := h3 e; omega⟩
  · intro ho
    show Spec.scan c.cmpData k.q _ <:+ k.rows ++ Spec.scan c.cmpData k.q [r]
    have h1 : Spec.scan c.cmpData k.q (rest (L.put c.maxRec r) it.page it.slot) <:+
        Spec.scan c.cmpData k.q (rest L it.page it.slot) ++ Spec.scan c.cmpData k.q [r] := by
      rw [← scan_append]
      exact (rest_put_suffix c.maxRec L r it.page it.slot).filter _
    obtain ⟨p2, e2⟩ := h.over ho
    refine h1.trans ⟨p2, ?_⟩
    rw [← List.append_assoc, e2]

theorem CursorOk.flush {Q : Iter → Prop} {it : Iter} {k : Cursor} (h : CursorOk c K Q L it k) :
    CursorOk c K Q L.flush it k := by
  refine ⟨h.keys, h.qbm, h.range, h.pos, ?_, ?_⟩
  · intro ho
    obtain ⟨h1, h2, h3⟩ := h.live ho
    rw [rest_flush]
    refine ⟨h1, ?_⟩
    unfold Log.flush
    split_ifs
    · exact ⟨h2, h3⟩
    · simp only [List.length_append, List.length_singleton]
      exact ⟨by omega, fun e => by omega⟩
  · intro ho
    rw [rest_flush]
    exact h.over ho

/-! ### The interleaved run -/

/-- A client that plays by the rules. -/
structure MClient (c : Cfg) (lo K : Nat) (ops : List MOp) : Prop where
  plain : ClientX c lo K (Spec.plainOps ops)
  opn : ∀ i q, MOp.opn i q ∈ ops → KeysOk K q

theorem MClient.tail {op : MOp} {ops : List MOp} (h : MClient c lo K (op :: ops)) : MClient c lo K ops where
  plain := by
    have := h.plain
    cases op with
    | op o => exact this.tail
    | opn i q => exact this
    | nxt i => exact this
  opn i q hm := h.opn i q (List.mem_cons_of_mem _ hm)

/-- An operation has the result and the effect it should have. -/
def OpGood (c : Cfg) (I : Data → Idx → Log → Prop) (L : Log) (old : Nat) (d' : Data) (x' : Idx) (out : Out) : Op → Prop
  | .put k v => (out = .code 0 ∧ I d' x' (L.put c.maxRec (k, v))) ∨ (out = .code 1 ∧ Spec.MayRefuse c.maxRec L ∧ I d' x' L)
  | .flush => out = .code 0 ∧ I d' x' L.flush
  | .get k => out = Spec.answer (L.live old) k ∧ I d' x' L
  | .scan q => out = .rows (Spec.scan c.cmpData q (L.live old)) ∧ I d' x' L

/-- What the proof about interleaved runs needs to know of the table; `I` is its invariant, `Q` says which query bitmap an
iterator has. -/
structure Engine (c : Cfg) (K P : Nat) (I : Data → Idx → Log → Prop) (Q : Iter → Prop) : Prop where
  page : ∀ d x L, I d x L → d.next = L.pages.length
  init : ∀ d x L q, I d x L → L.pages.length ≤ P → KeysOk K q →
    ∃ it, initIter c d q.minKey q.maxKey q.minData q.maxData = .ok it ∧ it.range = q ∧ Q it ∧ it.slot = 0 ∧
      d.min ≤ it.page ∧ it.page ≤ d.next ∧
      Spec.scan c.cmpData q (rest L it.page 0) = Spec.scan c.cmpData q (L.live d.min)
  next : ∀ d x L it, I d x L → KeysOk K it.range → Q it → d.min ≤ it.page →
    ∃ d' x' it' out, next c d x it = .ok (d', x', it', out) ∧ I d' x' L ∧ NextOk c L it it' out
  keep : ∀ it it', Q it → it'.range = it.range → it'.qbm = it.qbm → Q it'

theorem after_pages {L' : Log} {op : MOp} (h : L' = L ∨ ∃ o, op = .op o ∧ L' = after c.maxRec L o) :
    L'.pages.length ≤ L.pages.length + 1 := by
  rcases h with rfl | ⟨o, -, rfl⟩
  · omega
  · cases o with
    | put k v => have := Log_put_pages (L := L) c.maxRec (k, v); simp only [after]; omega
    | flush => have := Log_flush_pages (L := L); simp only [after]; omega
    | get k => simp only [after]; omega
    | scan q => simp only [after]; omega

theorem after_ascending {L' : Log} {op : MOp} {ops : List MOp} (hC : MClient c lo K (op :: ops))
    (hgt : ∀ r ∈ L.all, ∀ k ∈ Spec.offered (Spec.plainOps (op :: ops)), r.1 < k)
    (h : L' = L ∨ ∃ o, op = .op o ∧ L' = after c.maxRec L o) :
    ∀ r ∈ L'.all, ∀ k ∈ Spec.offered (Spec.plainOps ops), r.1 < k := by
  have h0 : ∀ r ∈ L.all, ∀ k ∈ Spec.offered (Spec.plainOps ops), r.1 < k := by
    intro r hr k hk
    refine hgt r hr k ?_
    cases op with
    | op o => cases o <;> simp [Spec.plainOps, Spec.offered, hk]
    | opn i q => exact hk
    | nxt i => exact hk
  rcases h with rfl | ⟨o, rfl, rfl⟩
  · exact h0
  · cases o with
    | put k v =>
      have hasc := List.pairwise_cons.mp hC.plain.asc
      intro r hr k' hk'
      simp only [after] at hr
      rw [Log_put_all] at hr
      rcases List.mem_append.mp hr with h | h
      · exact h0 r h k' hk'
      · rw [List.mem_singleton.mp h]; exact hasc.1 k' hk'
    | flush =>
      intro r hr k' hk'
      simp only [after] at hr
      rw [Log_flush_all] at hr
      exact h0 r hr k' hk'
    | get k => exact h0
    | scan q => exact h0

/-- The cursors of the specification describe the open iterators. -/
def CursorsOk (c : Cfg) (K : Nat) (Q : Iter → Prop) (L : Log) (its : Nat → Option Iter) (cs : Nat → Option Cursor) : Prop :=
  ∀ i k, cs i = some k → ∃ it, its i = some it ∧ CursorOk c K Q L it k

theorem CursorsOk.set {Q : Iter → Prop} {its : Nat → Option Iter} {cs : Nat → Option Cursor} (h : CursorsOk c K Q L its cs)
    {i : Nat} {it : Iter} {k : Cursor} (hk : CursorOk c K Q L it k) :
    CursorsOk c K Q L (setAt its i (some it)) (setAt cs i (some k)) := by
  intro j kk hkk
  unfold setAt at hkk ⊢
  by_cases hj : j = i
  · rw [if_pos hj] at hkk ⊢
    cases hkk
    exact ⟨it, rfl, hk⟩
  · rw [if_neg hj] at hkk ⊢
    exact h j kk hkk

/-- The observed result. -/
def seen {α : Type} : Res (Data × Idx × (Nat → Option Iter) × α) → Option α
  | .ok (_, _, _, o) => some o
  | _ => none

/-- One operation: its result is right and every successor state represents the new log and cursors. -/
theorem mixed_step {P : Nat} {stp : Data → Idx → Op → Res (Data × Idx × Out)} {I : Data → Idx → Log → Prop} {Q : Iter → Prop}
    (E : Engine c K P I Q) {limit : Log → Prop} {oldest : Log → Nat} {d : Data} {x : Idx} {its : Nat → Option Iter}
    {cs : Nat → Option Cursor} {op : MOp} (hI : I d x L) (hl : limit L) (hP : L.pages.length ≤ P) (ho : d.min = oldest L)
    (hop : ∀ o, op = .op o → limit (after c.maxRec L o) → ∃ d' x' out, stp d x o = .ok (d', x', out) ∧
      OpGood c I L d.min d' x' out o)
    (hopn : ∀ i q, op = .opn i q → KeysOk K q) (hcs : CursorsOk c K Q L its cs)
    {R : Log → (Nat → Option Cursor) → Prop}
    (hR : ∀ d' x' its' out L' cs', mstep stp c d x its op = .ok (d', x', its', out) → I d' x' L' → limit L' →
      CursorsOk c K Q L' its' cs' → (L' = L ∨ ∃ o, op = .op o ∧ L' = after c.maxRec L o) → R L' cs') :
    Spec.MixStep limit oldest c.maxRec c.cmpData L cs (seen (mstep stp c d x its op)) R op := by
  cases op with
  | op o =>
    have step : limit (after c.maxRec L o) → ∃ d' x' out, mstep stp c d x its (.op o) = .ok (d', x', its, .out out) ∧
        OpGood c I L d.min d' x' out o := by
      intro hlim
      obtain ⟨d', x', out, e1, e2⟩ := hop o rfl hlim
      refine ⟨d', x', out, ?_, e2⟩
      simp only [mstep]; rw [e1, Res.ok_bind]
    cases o with
    | put k v =>
      intro hlim
      obtain ⟨d', x', out, e, ⟨e1, e2⟩ | ⟨e1, e2, e3⟩⟩ := step hlim
      · left
        refine ⟨by rw [e, e1]; rfl, hR _ _ _ _ _ _ e e2 hlim ?_ (Or.inr ⟨_, rfl, rfl⟩)⟩
        intro i kk hk
        obtain ⟨k0, h1, h2⟩ := Option.map_eq_some_iff.mp hk
        obtain ⟨it, h3, h4⟩ := hcs i k0 h1
        exact ⟨it, h3, h2 ▸ h4.put (k, v)⟩
      · right
        exact ⟨by rw [e, e1]; rfl, e2, hR _ _ _ _ _ _ e e3 hl hcs (Or.inl rfl)⟩
    | flush =>
      intro hlim
      obtain ⟨d', x', out, e, e1, e2⟩ := step hlim
      refine ⟨by rw [e, e1]; rfl, hR _ _ _ _ _ _ e e2 hlim ?_ (Or.inr ⟨_, rfl, rfl⟩)⟩
      intro i kk hk
      obtain ⟨it, h3, h4⟩ := hcs i kk hk
      exact ⟨it, h3, h4.flush⟩
    | get k =>
      obtain ⟨d', x', out, e, e1, e2⟩ := step hl
      exact ⟨by rw [e, e1, ho]; rfl, hR _ _ _ _ _ _ e e2 hl hcs (Or.inl rfl)⟩
    | scan q =>
      obtain ⟨d', x', out, e, e1, e2⟩ := step hl
      exact ⟨by rw [e, e1, ho]; rfl, hR _ _ _ _ _ _ e e2 hl hcs (Or.inl rfl)⟩
  | opn i q =>
    have hq := hopn i q rfl
    have hn := E.page d x L hI
    obtain ⟨it, i1, i2, i3, i4, i5, i6, i7⟩ := E.init d x L q hI hP hq
    have e : mstep stp c d x its (.opn i q) = .ok (d, x, setAt its i (some it), .opened) := by
      simp only [mstep]; rw [i1]; rfl
    refine ⟨by rw [e]; rfl, hR _ _ _ _ _ _ e hI hl (hcs.set ?_) (Or.inl rfl)⟩
    refine ⟨by rw [i2]; exact hq, i3, i2, by simp only; omega, ?_, (by intro h; cases h)⟩
    intro _
    refine ⟨?_, by omega, fun _ => by omega⟩
    simp only
    rw [i4, i7, ho]
  | nxt i =>
    intro k hci hpos
    obtain ⟨it, hit, hk⟩ := hcs i k hci
    have hp := hk.pos
    obtain ⟨d', x', it', out, e1, e2, N⟩ := E.next d x L it hI hk.keys hk.qbm (by omega)
    have e : mstep stp c d x its (.nxt i) = .ok (d', x', setAt its i (some it'), .row out) := by
      simp only [mstep]; rw [hit]; simp only; rw [e1]; rfl
    have cont : ∀ k', CursorOk c K Q L it' k' → R L (setAt cs i (some k')) :=
      fun k' hk' => hR _ _ _ _ _ _ e e2 hl (hcs.set hk') (Or.inl rfl)
    rw [e]
    have hkeys : KeysOk K it'.range := by rw [N.range]; exact hk.keys
    have hqb : Q it' := E.keep it it' hk.qbm N.range N.qbm
    have hrg : it'.range = k.q := by rw [N.range]; exact hk.range
    have hpg := N.page
    have hnone : out = none → Spec.scan c.cmpData k.q (rest L it.page it.slot) = [] ∧
        Spec.scan c.cmpData k.q (rest L it'.page it'.slot) = [] := by
      intro h
      obtain ⟨q1, q2⟩ := N.done h
      rw [hk.range] at q1
      exact ⟨List.filter_eq_nil_iff.mpr (fun y hy => by rw [q1 y hy]; simp),
        List.filter_eq_nil_iff.mpr (fun y hy => by rw [q1 y (q2 y hy)]; simp)⟩
    have hsome : ∀ r, out = some r → Spec.scan c.cmpData k.q (rest L it.page it.slot) =
        r :: Spec.scan c.cmpData k.q (rest L it'.page it'.slot) ∧ L.pageOf r.1 ≤ it'.page ∧
        it'.page ≤ L.pages.length ∧ (it'.page = L.pages.length → it'.slot ≤ L.buf.length) := by
      intro r h
      obtain ⟨pre, p1, p2, p3⟩ := N.found r h
      obtain ⟨pg, s1, s2, s3⟩ := N.pos r h
      rw [hk.range] at p2 p3
      refine ⟨?_, pageOf_le s1 s2, ?_, ?_⟩
      · rw [p1]
        unfold Spec.scan
        rw [List.filter_append, List.filter_cons_of_pos p2,
          List.filter_eq_nil_iff.mpr (fun y hy => by rw [p3 y hy]; simp), List.nil_append]
      · have := (List.getElem?_eq_some_iff.mp s1).1
        simp at this
        omega
      · intro he
        rw [he] at s1
        simp at s1
        rw [s1]; exact s3
    obtain ⟨q, rows, pos, over⟩ := k
    simp only at *
    cases over with
    | false =>
      obtain ⟨l1, l2, l3⟩ := hk.live rfl
      cases out with
      | none =>
        obtain ⟨n1, n2⟩ := hnone rfl
        have hr : rows = [] := by rw [← n1]; exact l1.symm
        subst hr
        refine ⟨rfl, cont _ ⟨hkeys, hqb, hrg, by simp only; omega, (by intro h; cases h), ?_⟩⟩
        intro _
        simp only
        rw [n2]
        exact List.suffix_refl _
      | some r =>
        obtain ⟨n1, n2, n3, n4⟩ := hsome r rfl
        have hr : rows = r :: Spec.scan c.cmpData q (rest L it'.page it'.slot) := by rw [← n1]; exact l1.symm
        subst hr
        exact ⟨rfl, cont _ ⟨hkeys, hqb, hrg, n2, fun _ => ⟨rfl, n3, n4⟩, (by intro h; cases h)⟩⟩
    | true =>
      have l1 := hk.over rfl
      cases out with
      | none =>
        left
        refine ⟨rfl, cont _ ⟨hkeys, hqb, hrg, by simp only; omega, (by intro h; cases h), ?_⟩⟩
        intro _
        simp only
        rw [(hnone rfl).2]
        exact List.suffix_refl _
      | some r =>
        right
        obtain ⟨n1, n2, n3, n4⟩ := hsome r rfl
        obtain ⟨pre, hpre⟩ := l1
        simp only at hpre
        rw [n1] at hpre
        refine ⟨pre, r, _, hpre.symm, rfl, cont _ ⟨hkeys, hqb, hrg, n2, (by intro h; cases h), ?_⟩⟩
        intro _
        exact List.suffix_refl _

theorem mixed_ok {P : Nat} {stp : Data → Idx → Op → Res (Data × Idx × Out)} {I : Data → Idx → Log → Prop} {Q : Iter → Prop}
    (E : Engine c K P I Q) {limit : Log → Prop} {oldest : Log → Nat}
    (hold : ∀ d x L, I d x L → limit L → d.min = oldest L)
    {G : Data → Idx → (Nat → Option Iter) → List MOp → Prop}
    (hop : ∀ d x L its o ops, I d x L → limit L → L.pages.length + 1 ≤ P → MClient c lo K (.op o :: ops) →
      (∀ r ∈ L.all, ∀ k ∈ Spec.offered (Spec.plainOps (.op o :: ops)), r.1 < k) → G d x its (.op o :: ops) →
      limit (after c.maxRec L o) → ∃ d' x' out, stp d x o = .ok (d', x', out) ∧ OpGood c I L d.min d' x' out o)
    (hG : ∀ d x L its op ops d' x' its' out, I d x L → G d x its (op :: ops) →
      mstep stp c d x its op = .ok (d', x', its', out) → G d' x' its' ops) :
    ∀ (ops : List MOp) (d : Data) (x : Idx) (L : Log) (its : Nat → Option Iter) (cs : Nat → Option Cursor), I d x L →
      limit L → L.pages.length + ops.length ≤ P → MClient c lo K ops →
      (∀ r ∈ L.all, ∀ k ∈ Spec.offered (Spec.plainOps ops), r.1 < k) → G d x its ops → CursorsOk c K Q L its cs →
      Spec.MixRun limit oldest c.maxRec c.cmpData L cs (mhistory stp c d x its ops) := by
  intro ops
  induction ops with
  | nil => intros; exact trivial
  | cons op ops ih =>
    intro d x L its cs hI hl hP hC hgt g hcs
    rw [List.length_cons] at hP
    have main : ∀ {R : Log → (Nat → Option Cursor) → Prop}, _ → _ := fun {R} h =>
      mixed_step (R := R) (op := op) E hI hl (by omega) (hold d x L hI hl)
        (by rintro o rfl; exact hop d x L its o ops hI hl (by omega) hC hgt g)
        (by rintro i q rfl; exact hC.opn i q (by simp)) hcs h
    unfold mhistory
    cases e : mstep stp c d x its op with
    | ok r =>
      obtain ⟨d', x', its', out⟩ := r
      have := main (R := fun L' cs' => Spec.MixRun limit oldest c.maxRec c.cmpData L' cs' (mhistory stp c d' x' its' ops)) ?_
      · rw [e] at this
        exact this
      · intro d2 x2 its2 out2 L' cs' e2 hI' hl' hcs' hL'
        rw [e] at e2
        cases e2
        exact ih d' x' L' its' cs' hI' hl' (by have := after_pages hL'; omega) hC.tail (after_ascending hC hgt hL')
          (hG _ _ _ _ _ _ _ _ _ _ hI g e) hcs'
    | ub =>
      have := main (R := fun _ _ => True) (fun _ _ _ _ _ _ _ _ _ _ _ => trivial)
      rw [e] at this
      exact this
    | fuel =>
      have := main (R := fun _ _ => True) (fun _ _ _ _ _ _ _ _ _ _ _ => trivial)
      rw [e] at this
      exact this

/-! ### The two kinds of tables -/

/-- Along the run every operation satisfies `g`. -/
def MSafe (g : Data → Idx → Op → Prop) (stp : Data → Idx → Op → Res (Data × Idx × Out)) (c : Cfg) :
    Data → Idx → (Nat → Option Iter) → List MOp → Prop
  | _, _, _, [] => True
  | d, x, its, op :: ops => (∀ o, op = .op o → g d x o) ∧
    ∀ d' x' its' out, mstep stp c d x its op = .ok (d', x', its', out) → MSafe g stp c d' x' its' ops

theorem engine_plain (hok : c.Ok K) {P : Nat} (hB : Bounds c lo K P) (hbm : c.useBmap = false) :
    Engine c K P (fun d _ L => Table c lo K d L) (fun it => it.qbm = none) where
  page _ _ _ h := h.sim.next
  init d x L q h hP hq := initIter_ok hok.cmp hB hok.spline hbm h.sim (by rw [h.sim.next]; exact hP) hq
  next d x L it h hk hq hm := by
    obtain ⟨d', it', out, e1, e2, e3, e4⟩ := next_ok hok.cmp hok.N0 x h.sim hk hq hm
    exact ⟨d', x, it', out, e1, h.congr e2 e3, e4⟩
  keep it it' h1 _ h2 := by rw [h2]; exact h1

theorem engine_index (hok : c.Ok K) (hx : c.IdxOk) {P : Nat} (hB : Bounds c lo K P) :
    Engine c K P (fun d x L => TableX c lo K 0 d x L ∧ Aligned c x d.next) (QbmOk c) where
  page _ _ _ h := h.1.table.sim.next
  init d x L q h hP hq := initIter_idx hok.cmp hB hok.spline h.1.table.sim (by rw [h.1.table.sim.next]; exact hP) hq
  next d x L it h hk hq hm := by
    obtain ⟨d', x', it', out, e1, e2, e3, e4, e5⟩ := nextLoop_idx hx hok.B0 hok.cmp hok.N0
      (d.next + 1 - it.page + 1) d x it h.1.table.sim h.1.idx hk hq hm (by omega) (by omega)
    refine ⟨d', x', it', out, e1, ⟨⟨h.1.table.congr e2 e3, e4, by rw [e2.wbuf]; exact h.1.hdr⟩, ?_⟩, e5⟩
    rw [e2.next]
    exact (nextLoop_sameIdx _ _ _ _ _ _ _ _ e1).aligned h.2
  keep it it' h1 h2 h3 := h1.of h2 h3

theorem op_plain (hok : c.Ok K) {P : Nat} (hB : Bounds c lo K P) (hbm : c.useBmap = false) (h255 : c.maxRec ≤ 255)
    {d : Data} {x : Idx} {o : Op} {ops : List MOp} (T : Table c lo K d L) (hP : L.pages.length + 1 ≤ P)
    (hC : MClient c lo K (.op o :: ops))
    (hgt : ∀ r ∈ L.all, ∀ k ∈ Spec.offered (Spec.plainOps (.op o :: ops)), r.1 < k)
    (hs : completes c d o → d.buffered ≠ some (d.next % c.N)) :
    ∃ d' x' out, step c d x o = .ok (d', x', out) ∧ OpGood c (fun d _ L => Table c lo K d L) L d.min d' x' out o := by
  have hn := T.sim.next
  have hcount : pageCount d.wbuf = L.buf.length := by rw [← T.sim.buf, recs_length]
  cases o with
  | put k v =>
    obtain ⟨h1, h2, h3⟩ := hC.plain.put k v (by simp [Spec.plainOps])
    obtain ⟨d', ⟨e, T'⟩ | ⟨e, T', -, hr⟩⟩ := T.put hok (Or.inl rfl) hB (by omega) x h3 h1 h2
      (fun r hr => hgt r hr k (by simp [Spec.plainOps, Spec.offered])) (fun hf => hs (by unfold completes; omega))
    · exact ⟨d', x, _, e, Or.inl ⟨rfl, T'⟩⟩
    · exact ⟨d', x, _, e, Or.inr ⟨rfl, hr, T'⟩⟩
  | flush =>
    obtain ⟨d', e, T'⟩ := T.flush hok (Or.inl rfl) hB (by omega) x (by
      intro hf
      refine hs ?_
      unfold completes
      rw [hcount]
      exact fun h0 => hf (List.length_eq_zero_iff.mp h0))
    exact ⟨d', x, _, e, rfl, T'⟩
  | get k =>
    obtain ⟨d', e, T'⟩ := T.get hok hB (by omega) x h255 (hC.plain.get k (by simp [Spec.plainOps]))
    exact ⟨d', x, _, e, rfl, T'⟩
  | scan q =>
    obtain ⟨d', e, T'⟩ := T.scan hok hB (by omega) x hbm (hC.plain.scan q (by simp [Spec.plainOps]))
    exact ⟨d', x, _, e, rfl, T'⟩

theorem op_index (hok : c.Ok K) (hx : c.IdxOk) {P : Nat} (hB : Bounds c lo K P) (h255 : c.maxRec ≤ 255)
    {d : Data} {x : Idx} {o : Op} {ops : List MOp} (T : TableX c lo K 0 d x L) (A : Aligned c x d.next)
    (hP : L.pages.length + 1 ≤ P) (hC : MClient c lo K (.op o :: ops))
    (hgt : ∀ r ∈ L.all, ∀ k ∈ Spec.offered (Spec.plainOps (.op o :: ops)), r.1 < k) (hs : SafeOp c d x o) :
    ∃ d' x' out, stepX c d x o = .ok (d', x', out) ∧
      OpGood c (fun d x L => TableX c lo K 0 d x L ∧ Aligned c x d.next) L d.min d' x' out o := by
  have hn := T.table.sim.next
  cases o with
  | put k v =>
    obtain ⟨h1, h2, h3⟩ := hC.plain.put k v (by simp [Spec.plainOps])
    obtain ⟨d', x', ⟨e, T', A'⟩ | ⟨e, T', E, ex, hr⟩⟩ := T.put hok hx (Or.inl rfl) hB (by omega) h3 h1 h2
      (fun r hr => hgt r hr k (by simp [Spec.plainOps, Spec.offered])) hs (fun _ => A)
    · exact ⟨d', x', _, e, Or.inl ⟨rfl, T', A' A⟩⟩
    · exact ⟨d', x', _, e, Or.inr ⟨rfl, hr, T', by rw [ex, E.next]; exact A⟩⟩
  | flush =>
    obtain ⟨d', x', e, T', A'⟩ := T.flush hok hx (Or.inl rfl) hB (by omega) hs (fun _ => A)
    exact ⟨d', x', _, e, rfl, T', A' A⟩
  | get k =>
    obtain ⟨d', e, T', en⟩ := T.get hok hB (by omega) h255 (hC.plain.get k (by simp [Spec.plainOps]))
    exact ⟨d', x, _, e, rfl, T', by rw [en]; exact A⟩
  | scan q =>
    obtain ⟨d', x', e, T', en, es⟩ := T.scan hok hx hB (by omega) (hC.plain.scan q (by simp [Spec.plainOps]))
    exact ⟨d', x', _, e, rfl, T', by rw [en]; exact es.aligned A⟩

end

end EDB
