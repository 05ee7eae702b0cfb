import Verif.Proofs.RlcLife
import Verif.Proofs.DemoRlc

/-!
# C20, C21: record-level consistency

A data file with record-level consistency may live through any number of sessions, each cut off between any two storage
operations, also those of the recovery (`Rlc`).
-/

namespace EDB

open Spec (Log Op Out Attempt MayHold CutPut KeepsPermanent)

/-- The assumptions: a spline-mode table with record-level consistency and at least four blocks (which `embedDBInit`
demands), keys and page counts within the exact range of the spline arithmetic, at most 127 records per page (see C41),
an erase that leaves page contents alone or blanks them, a device that works; for files that wrap a spline error bound of
at most 1. -/
structure RlcDurable (c : Cfg) (lo K P : Nat) : Prop where
  ok : RlcOk c K P
  bounds : Bounds c lo K P
  two : 2 ≤ P

section
variable {cap : Nat} {H : List Attempt} {L : Log}

theorem acked_append (H G : List Attempt) : Spec.acked (H ++ G) = Spec.acked H ++ Spec.acked G := by
  induction H with
  | nil => rfl
  | cons h t ih => cases h <;> simp [Spec.acked, ih]

/-- What a table may hold after some attempts (`MayHold`): every record acknowledged, in the order of the inserts, and
beyond that only records whose insert was cut off. -/
theorem mayHold_sound (h : MayHold cap H L) :
    (Spec.acked H).Sublist L.all ∧ L.all.Sublist (Spec.tried H) := by
  induction h with
  | nil => exact ⟨List.Sublist.refl _, List.Sublist.refl _⟩
  | @put H L h r ih =>
    rw [acked_append, tried_append, Log_put_all]
    exact ⟨ih.1.append (List.Sublist.refl _), ih.2.append (List.Sublist.refl _)⟩
  | @flush H L h ih =>
    rw [acked_append, tried_append, Log_flush_all]
    simpa [Spec.acked, Spec.tried] using ih
  | @putCut H L L' h r e ih =>
    rw [acked_append, tried_append]
    simp only [Spec.acked, Spec.tried, List.append_nil]
    have h1 : L.all.Sublist (Spec.tried H ++ [r]) := ih.2.trans (List.sublist_append_left _ _)
    cases e with
    | before => exact ⟨ih.1, h1⟩
    | full h =>
      have ha : (⟨L.pages ++ [L.buf], []⟩ : Log).all = L.all := by simp [Log.all]
      rw [ha]; exact ⟨ih.1, h1⟩
    | after =>
      rw [Log_put_all]
      exact ⟨ih.1.trans (List.sublist_append_left _ _), ih.2.append (List.Sublist.refl _)⟩
  | @flushCut H L L' h e ih =>
    rw [acked_append, tried_append]
    simp only [Spec.acked, Spec.tried, List.append_nil]
    rcases e with e | e
    · rw [e]; exact ih
    · rw [e, Log_flush_all]; exact ih

end

section
variable {c : Cfg} {lo K P : Nat}

theorem recover_reads (D : RlcDurable c lo K P) {v : Dev} {H : List Attempt} (h : Rlc c lo K P (.off v) H) (rb : Page)
    (sm : Nat → Nat × Nat) :
    ∃ d' L, recover c v rb sm = (d', 0) ∧ MayHold c.maxRec H L ∧ OrderedLog c lo K L ∧ d'.next = L.pages.length ∧
      d'.min = Spec.rlcDropped c.N c.B L.pages.length ∧ d'.next ≤ P ∧ Sim c lo K d'.min (clr d') L ∧
      (0 < d'.next → Sim c lo K d'.min d' L) := by
  obtain ⟨L, s, g, hM, hK⟩ := h.inv D.ok D.bounds D.two
  obtain ⟨d', evs, ps, fr, t, g1, g2, T, TR, s1, s2⟩ := recover_rlc D.ok D.bounds D.two g s rb sm
  have hn : d'.next = L.pages.length := s1.next
  have hl := T.len
  have := T.img.lt
  refine ⟨d', L, g1, hM, g, hn, ?_, by omega, s1, s2⟩
  rw [T.min, ← hn, rlcDropped_area]

/-- C20 (`_partial`: `RlcDurable` configurations; the life of the file may contain flushes only where they do not complete a block,
`FlushOk`; lookups and scans after recovery before the next insert or flush; see `C20_false_stale_cache`,
`C21_false_flush`).

Whatever happened to the file before, any number of sessions of ascending inserts and flushes, power failing at any storage operation of an
insert, a flush, or a recovery: opening it succeeds, and there is a log `L` that the attempts so far may have produced (`MayHold`: nothing acknowledged
is missing, what was cut off happened or not) such that every lookup and scan answers from `L`, except for the pages that had to
be dropped. -/
theorem C20_crash_partial (D : RlcDurable c lo K P) {v : Dev} {H : List Attempt} (h : Rlc c lo K P (.off v) H) (rb : Page)
    (sm : Nat → Nat × Nat) :
    ∃ d' L, recover c v rb sm = (d', 0) ∧ MayHold c.maxRec H L ∧
      ∀ (ops : List Op) (x : Idx), Client c lo K ops → (∀ op ∈ ops, op.isRead) →
        Spec.Run (fun _ => True) (fun l => l.live (Spec.rlcDropped c.N c.B l.pages.length)) c.maxRec c.cmpData L
          (history c d' x ops) := by
  obtain ⟨d', L, g1, g2, g3, g4, g5, g6, g7, g8⟩ := recover_reads D h rb sm
  have h127 := D.ok.cap127
  have hN := D.ok.geo.N0
  have conv : ∀ (hs : Spec.History), (∀ p ∈ hs, p.1.isRead) → ∀ {L : Log} {m : Nat}, m = Spec.rlcDropped c.N c.B L.pages.length →
      Spec.Run (fun _ => True) (fun l => l.live m) c.maxRec c.cmpData L hs →
      Spec.Run (fun _ => True) (fun l => l.live (Spec.rlcDropped c.N c.B l.pages.length)) c.maxRec c.cmpData L hs := by
    intro hs
    induction hs with
    | nil => intro _ L m _ _; exact trivial
    | cons y t ih =>
      intro hr L m hm r
      obtain ⟨op, o⟩ := y
      have hr' : ∀ p ∈ t, p.1.isRead := fun o ho => hr o (by simp [ho])
      cases op with
      | put k v => exact absurd (hr _ List.mem_cons_self) (by simp [Op.isRead])
      | flush => exact absurd (hr _ List.mem_cons_self) (by simp [Op.isRead])
      | get k => exact ⟨by rw [r.1, hm], ih hr' hm r.2⟩
      | scan k => exact ⟨by rw [r.1, hm], ih hr' hm r.2⟩
  refine ⟨d', L, g1, g2, ?_⟩
  intro ops x C hr
  have hrd : ∀ d, ∀ p ∈ history c d x ops, p.1.isRead := fun d p hp => hr _ (history_ops ops d x p hp)
  refine conv _ (hrd _) g5 ?_
  rcases Nat.eq_zero_or_pos d'.next with h0 | h0
  · have R := g7.reads D.ok.cmp hN D.bounds D.ok.spline (by omega) g3.cap ops (clr d') x (rfl : (clr d').min = d'.min) g6 C hr
    rw [history_zero h0 ops x hr (run_some _ _ R (hrd _))]
    exact R
  · exact (g8 h0).reads D.ok.cmp hN D.bounds D.ok.spline (by omega) g3.cap ops d' x rfl g6 C hr

/-- C20 for a single record (`_partial` as `C20_crash_partial`): a record acknowledged is found after any later power failures and
recoveries, with its data, unless its page was dropped because of the size of the ring. -/
theorem C20_found_partial (D : RlcDurable c lo K P) {v : Dev} {H : List Attempt} (h : Rlc c lo K P (.off v) H) (rb : Page)
    (sm : Nat → Nat × Nat) :
    ∃ d' L, recover c v rb sm = (d', 0) ∧ MayHold c.maxRec H L ∧ ∀ k data, (k, data) ∈ Spec.acked H →
      (∃ d2, get c d' k = .ok (d2, 0, some data)) ∨
      ∃ l, l < Spec.rlcDropped c.N c.B L.pages.length ∧ (k, data) ∈ L.pages.getD l [] := by
  obtain ⟨d', L, g1, g2, g3, g4, g5, g6, g7, g8⟩ := recover_reads D h rb sm
  have h127 := D.ok.cap127
  have hN := D.ok.geo.N0
  refine ⟨d', L, g1, g2, ?_⟩
  intro k data hk
  have hall : (k, data) ∈ L.all := (mayHold_sound g2).1.subset hk
  have hb := (g3.bound _ hall).2
  by_cases hlive : (k, data) ∈ L.live d'.min
  · left
    have hs := (lookup_eq_some (Log_live_sorted g3.sorted d'.min)).mpr hlive
    have h255 : ∀ i, i < L.buf.length → i % 256 ≠ 255 := by
      intro i hi
      have := g3.cap.2
      omega
    have fin : ∀ {d1 d2 : Data} {code out}, get c d1 k = .ok (d2, code, out) → Answer (L.live d'.min) k code out →
        get c d1 k = .ok (d2, 0, some data) := by
      intro d1 d2 code out e A
      rcases A with ⟨v, a1, a2, a3⟩ | ⟨a1, _⟩
      · rw [hs] at a1
        cases a1
        rw [e, a2, a3]
      · rw [hs] at a1; cases a1
    rcases Nat.eq_zero_or_pos d'.next with h0 | h0
    · obtain ⟨d2, code, out, e1, _, _, A⟩ := get_ok D.ok.cmp hN D.bounds D.ok.spline hb g7 g6 h255
      have e2 := fin e1 A
      unfold get at e2 ⊢
      have hn : (clr d').next = 0 := h0
      rw [if_pos hn] at e2
      rw [if_pos h0]
      obtain ⟨⟨r, out'⟩, h3, e2⟩ := Res.bind_eq_ok e2
      have h3' : searchBuffer c d'.wbuf k = .ok (r, out') := h3
      rw [h3', Res.ok_bind]
      simp only [Res.ok.injEq, Prod.mk.injEq] at e2 ⊢
      exact ⟨d', rfl, e2.2⟩
    · obtain ⟨d2, code, out, e1, _, _, A⟩ := get_ok D.ok.cmp hN D.bounds D.ok.spline hb (g8 h0) g6 h255
      exact ⟨d2, fin e1 A⟩
  · right
    rw [← g5]
    unfold Log.live at hlive
    unfold Log.all at hall
    simp only [List.mem_append, not_or] at hlive hall
    rcases hall with h1 | h1
    · obtain ⟨pg, p1, p2⟩ := List.mem_flatten.mp h1
      obtain ⟨l, hl, hpl⟩ := List.getElem_of_mem p1
      refine ⟨l, ?_, by rw [List.getD_eq_getElem?_getD, List.getElem?_eq_getElem hl, hpl]; exact p2⟩
      by_contra hge
      apply hlive.1
      rw [List.mem_flatten]
      refine ⟨pg, ?_, p2⟩
      rw [← hpl]
      have : L.pages[l] = (L.pages.drop d'.min)[l - d'.min]'(by rw [List.length_drop]; omega) := by
        rw [List.getElem_drop]; congr 1; omega
      rw [this]
      exact List.getElem_mem _
    · exact absurd h1 hlive.2

/-- A page without records of the table: a number no page has, or no records. -/
def NoRecords (c : Cfg) (P : Nat) (q : Page) : Prop :=
  P ≤ Spec.pageNo q ∨ Spec.pageRecs c.hdr c.recSize c.keySize c.dataSize q = []

theorem RlcKept.made {v : Dev} {L : Log} (hK : RlcKept c P L v) : Spec.MadeBy c.eraseFx (NoRecords c P) v.log v.file := by
  intro ph
  rcases hK.image ph with h | ⟨h, q, h1, h2⟩
  · rw [h]
    exact ⟨fun q hq => hq, fun h' q hq => (by rw [h'] at hq; cases hq)⟩
  · refine ⟨fun q hq => (by rw [h] at hq; cases hq), fun _ q' hq => ?_⟩
    rw [h1] at hq
    cases hq
    rcases h2.2 with b | b
    · exact Or.inl (by rw [← pageId_spec]; exact b)
    · exact Or.inr (by rw [← recs_spec]; unfold recs; rw [b.2]; rfl)

/-- C21 (`_partial`: `RlcDurable` configurations, flushes only where they do not complete a block, `FlushOk`; otherwise false,
`C21_false_flush`).

At every moment of any life of the file (power on or off): in the whole history of storage operations permanent pages were written one after the other each in its
place, and no write of a temporary page and no erase ever hit a retained permanent page.  The file is what they made it; pages
that they did not make are unreadable or without records. -/
theorem C21_temporary_partial (D : RlcDurable c lo K P) {M : Machine} {H : List Attempt} (h : Rlc c lo K P M H) :
    KeepsPermanent c.N c.B 0 M.dev.log ∧ Spec.MadeBy c.eraseFx (NoRecords c P) M.dev.log M.dev.file := by
  have I := h.inv D.ok D.bounds D.two
  cases M with
  | on d =>
    obtain ⟨L, ps, fr, t, T, hM, hK⟩ := I
    exact ⟨by have := hK.keeps [] trivial; rw [List.append_nil] at this; exact this, hK.made⟩
  | off v =>
    obtain ⟨L, s, g, hM, hK⟩ := I
    exact ⟨by have := hK.keeps [] trivial; rw [List.append_nil] at this; exact this, hK.made⟩

/-- C21, what it is for (`_partial` as above): at every moment of use every retained permanent page is in its place with its number and its
records. -/
theorem C21_intact_partial (D : RlcDurable c lo K P) {d : Data} {H : List Attempt} (h : Rlc c lo K P (.on d) H) :
    ∃ L, MayHold c.maxRec H L ∧ d.next = L.pages.length ∧ d.min = Spec.rlcDropped c.N c.B d.next ∧
      (∀ l, Spec.Retained c.N c.B d.next l → ∃ p, d.dev.file (l % c.N) = some p ∧ Spec.pageNo p = l ∧
        Spec.pageRecs c.hdr c.recSize c.keySize c.dataSize p = L.pages.getD l []) ∧
      Spec.pageRecs c.hdr c.recSize c.keySize c.dataSize d.wbuf = L.buf := by
  obtain ⟨L, ps, fr, t, T, hM, hK⟩ := h.inv D.ok D.bounds D.two
  obtain ⟨a, _, S⟩ := T.sim
  have hn : d.next = L.pages.length := S.next
  have hm : d.min = Spec.rlcDropped c.N c.B d.next := by rw [T.min, rlcDropped_area]
  have hl := T.len
  have hlt := T.img.lt
  have h32 := D.bounds.pages
  refine ⟨L, hM, hn, hm, ?_, by rw [← recs_spec]; exact S.buf⟩
  rintro l ⟨l1, l2⟩
  obtain ⟨p, p1, p2, p3⟩ := S.stored l (by show d.min ≤ l; omega) (by omega)
  refine ⟨p, p1, ?_, ?_⟩
  · rw [← pageId_spec, p3, Nat.mod_eq_of_lt (by omega)]
  · rw [← recs_spec, p2, List.getD_eq_getElem?_getD, List.getElem?_eq_getElem (by omega)]; rfl

end

/-! The hypotheses hold of a file of eight pages that lived through six sessions, with power failures during inserts, a
flush and a recovery, after 67 storage operations. -/

theorem demoR_durable : RlcDurable demoR 0 1000 1000 := ⟨demoR_ok _, demoR_bounds, by decide⟩

/-- Test of the end of `lifeR`. -/
def endTest : Option (Machine × List Attempt) → Bool
  | some (.off v, H) => v.log.length == 67 && (Spec.acked H).length == 21 && (Spec.tried H).length == 25
  | _ => false

example : ∃ v H, Rlc demoR 0 1000 1000 (.off v) H ∧ v.log.length = 67 ∧ (Spec.acked H).length = 21 ∧ (Spec.tried H).length = 25 := by
  have h : endTest endR = true := by decide +kernel
  cases e : endR with
  | none => rw [e] at h; cases h
  | some M =>
    rw [e] at h
    obtain ⟨M, H⟩ := M
    cases M with
    | on d => cases h
    | off v =>
      simp only [endTest, Bool.and_eq_true, beq_iff_eq] at h
      exact ⟨v, H, endR_rlc e, h.1.1, h.1.2, h.2⟩

/-! The same with holes in a file, and on a chip that shows its blank pages. -/

theorem demoD_durable : RlcDurable demoD 0 1000 1000 := ⟨demoD_ok _, demoD_bounds, by decide⟩

/-- Test of the end of a life with power on. -/
def onTest (pages acked tried : Nat) : Option (Machine × List Attempt) → Bool
  | some (.on d, H) => d.next == pages && (Spec.acked H).length == acked && (Spec.tried H).length == tried
  | _ => false

theorem onTest_rlc {c : Cfg} {lo K P pages acked tried : Nat} {M : Machine × List Attempt} {l : List Act} {rb : Page} {sm : Nat → Nat × Nat}
    (h : Rlc c lo K P M.1 M.2) (t : onTest pages acked tried (acts c lo K P rb sm M l) = true) :
    ∃ d H, Rlc c lo K P (.on d) H ∧ d.next = pages ∧ (Spec.acked H).length = acked ∧ (Spec.tried H).length = tried := by
  cases e : acts c lo K P rb sm M l with
  | none => rw [e] at t; cases t
  | some M =>
    rw [e] at t
    obtain ⟨M, H⟩ := M
    cases M with
    | off v => cases t
    | on d =>
      simp only [onTest, Bool.and_eq_true, beq_iff_eq] at t
      exact ⟨d, H, acts_rlc _ h e, t.1.1, t.1.2, t.2⟩

example : ∃ d H, Rlc demoD 0 1000 1000 (.on d) H ∧ d.next = 8 ∧ (Spec.acked H).length = 16 ∧ (Spec.tried H).length = 18 :=
  onTest_rlc (pages := 8) (acked := 16) (tried := 18) (rb := fun _ => 0) (sm := fun _ => (0, 0)) (l := lifeD) (M := (.on (Data.fresh demoD (fun _ => 0) fun _ => (0, 0)), [])) (.new _ _) (by decide +kernel)

example : ∃ d H, Rlc demoR 0 1000 1000 (.on d) H ∧ d.next = 11 ∧ (Spec.acked H).length = 21 ∧ (Spec.tried H).length = 25 :=
  onTest_rlc (pages := 11) (acked := 21) (tried := 25) (rb := fun _ => 0) (sm := fun _ => (0, 0)) (l := .reopen :: lifeR ++ [.reopen]) (M := (.off chipR, [])) chipR_rlc (by decide +kernel)

end EDB
