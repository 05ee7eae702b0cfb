import Verif.Proofs.Always
import Verif.Model.Index
import Verif.Model.Past
import Verif.Proofs.PageSpec

/-! Helper lemmas: every record on the device, in the write buffer or in a valid read buffer was inserted, whatever the device
refuses, whatever keys are offered and whenever power fails. -/

namespace EDB

open Spec (Rec Op Out Range)

/-- All records of the page are among `S`. -/
def Fine (c : Cfg) (S : List Rec) (p : Page) : Prop := ∀ r ∈ recs c p, r ∈ S

/-- An erase leaves no records on a page that were not there. -/
def EraseFine (c : Cfg) : Prop :=
  ∀ o q, c.eraseFx o = some q → ∀ r ∈ recs c q, ∃ p, o = some p ∧ r ∈ recs c p

structure HonestDev (c : Cfg) (S : List Rec) (v : Dev) : Prop where
  file : ∀ i p, v.file i = some p → Fine c S p
  log : ∀ i p, Ev.write i p ∈ v.log → Fine c S p

structure Honest (c : Cfg) (S : List Rec) (d : Data) : Prop where
  dev : HonestDev c S d.dev
  wb : Fine c S d.wbuf
  cache : d.buffered ≠ none → Fine c S d.rbuf

section
variable {c : Cfg} {S S' : List Rec}

theorem Fine.mono (h : ∀ r ∈ S, r ∈ S') {p : Page} (f : Fine c S p) : Fine c S' p := fun r hr => h r (f r hr)

theorem HonestDev.mono (h : ∀ r ∈ S, r ∈ S') {v : Dev} (f : HonestDev c S v) : HonestDev c S' v :=
  ⟨fun i p hp => (f.file i p hp).mono h, fun i p hp => (f.log i p hp).mono h⟩

theorem Honest.mono (h : ∀ r ∈ S, r ∈ S') {d : Data} (f : Honest c S d) : Honest c S' d :=
  ⟨f.dev.mono h, f.wb.mono h, fun hb => (f.cache hb).mono h⟩

theorem Fine.init : Fine c S (initPage c) := by
  unfold Fine
  rw [recs_init]; simp

theorem Fine.same {p q : Page} (h : SameRecs c p q) (f : Fine c S q) : Fine c S p := by
  unfold Fine
  rw [h.recs]
  exact f

theorem Fine.append (hL : c.Layout) (hcap : c.maxRec ≤ 65535) {p : Page} (f : Fine c S p) (hn : pageCount p < c.maxRec) {key : Nat}
    {data : List Byte} (loc : Nat) (hd : data.length = c.dataSize) (hk : key < 256 ^ c.keySize) (hm : (key, data) ∈ S) :
    Fine c S (appendRec c p key data loc) := by
  unfold Fine
  rw [recs_append hL p key data loc hd hk (by omega)]
  intro r hr
  rcases List.mem_append.mp hr with h | h
  · exact f r h
  · rw [List.mem_singleton.mp h]; exact hm

theorem Fine.erased (hE : EraseFine c) {o : Option Page} (ho : ∀ p, o = some p → Fine c S p) {q : Page} (h : c.eraseFx o = some q) :
    Fine c S q := by
  intro r hr
  obtain ⟨p, hp, hr⟩ := hE o q h r hr
  exact ho p hp r hr

theorem HonestDev.write {v : Dev} (h : HonestDev c S v) (ph : Nat) {p : Page} (f : Fine c S p) :
    HonestDev c S (v.write c ph p).1 := by
  unfold Dev.write
  split_ifs
  · refine ⟨fun i q hq => ?_, fun i q hq => ?_⟩
    · simp only at hq
      split_ifs at hq
      · cases hq; exact f
      · exact h.file i q hq
    · rcases List.mem_append.mp hq with hq | hq
      · exact h.log i q hq
      · cases List.mem_singleton.mp hq; exact f
  · exact ⟨h.file, h.log⟩

theorem HonestDev.erase (hE : EraseFine c) {v : Dev} (h : HonestDev c S v) (lo hi : Nat) :
    HonestDev c S (v.erase c lo hi).1 := by
  unfold Dev.erase
  split_ifs
  · refine ⟨fun i q hq => ?_, fun i q hq => ?_⟩
    · simp only at hq
      split_ifs at hq
      · exact Fine.erased hE (fun p hp => h.file i p hp) hq
      · exact h.file i q hq
    · rcases List.mem_append.mp hq with hq | hq
      · exact h.log i q hq
      · cases List.mem_singleton.mp hq
  · exact ⟨h.file, h.log⟩

theorem image_fine (hE : EraseFine c) : ∀ (log : List Ev) (f : Nat → Option Page),
    (∀ i p, f i = some p → Fine c S p) → (∀ i p, Ev.write i p ∈ log → Fine c S p) →
    ∀ i p, log.foldl (Spec.applyEv c.eraseFx) f i = some p → Fine c S p := by
  intro log
  induction log with
  | nil => intro f hf _; exact hf
  | cons e t ih =>
    intro f hf hl
    refine ih _ ?_ (fun i p h => hl i p (List.mem_cons_of_mem _ h))
    intro i p hp
    cases e with
    | write ph q =>
      simp only [Spec.applyEv] at hp
      split_ifs at hp
      · cases hp; exact hl _ _ List.mem_cons_self
      · exact hf i p hp
    | erase lo hi =>
      simp only [Spec.applyEv] at hp
      split_ifs at hp
      · exact Fine.erased hE (fun p hp => hf i p hp) hp
      · exact hf i p hp

theorem HonestDev.cut (hE : EraseFine c) {v : Dev} (h : HonestDev c S v) (k : Nat) : HonestDev c S (cutDev c v k) := by
  refine ⟨?_, fun i p hp => h.log i p (List.mem_of_mem_take hp)⟩
  exact image_fine hE _ _ (fun i p hp => by cases hp) (fun i p hp => h.log i p (List.mem_of_mem_take hp))

theorem Honest.read {d : Data} (h : Honest c S d) (ph : Nat) :
    Honest c S (readPage d ph).1 ∧ ((readPage d ph).2 = true → (readPage d ph).1.buffered ≠ none) := by
  unfold readPage
  split_ifs with hb
  · exact ⟨h, fun _ => by simp [hb]⟩
  · split
    · exact ⟨h, fun h => by cases h⟩
    · rename_i p hp
      exact ⟨⟨h.dev, h.wb, fun _ => h.dev.file _ p hp⟩, fun _ => by simp⟩

theorem Honest.lin {key : Nat} : ∀ (f : Nat) (d : Data) (p l h : Int) (d' : Data) (b : Bool), Honest c S d →
    linSearch c key f d p l h = .ok (d', b) → Honest c S d' ∧ (b = true → d'.buffered ≠ none) := by
  intro f
  induction f with
  | zero => intro d p l h d' b _ e; simp [linSearch] at e
  | succ f ih =>
    intro d p l h d' b H e
    unfold linSearch at e
    split_ifs at e with h1
    · cases e; exact ⟨H, fun h => by cases h⟩
    · obtain ⟨d1, r, hr⟩ : ∃ d1 r, readPage d (p.toNat % c.N) = (d1, r) := ⟨_, _, rfl⟩
      have s1 := H.read (p.toNat % c.N)
      rw [hr] at e s1
      simp only at e s1
      split_ifs at e with h2
      · exact ih _ _ _ _ _ _ s1.1 e
      · exact ih _ _ _ _ _ _ s1.1 e
      · cases e; exact ⟨s1.1, fun _ => s1.2 h2⟩
      · cases e; exact ⟨s1.1, fun h => by cases h⟩

theorem Honest.bin {key : Nat} : ∀ (f : Nat) (d : Data) (p l h : Nat) (d' : Data) (b : Bool), Honest c S d →
    binSearchLoop c key f d p l h = .ok (d', b) → Honest c S d' ∧ (b = true → d'.buffered ≠ none) := by
  intro f
  induction f with
  | zero => intro d p l h d' b _ e; simp [binSearchLoop] at e
  | succ f ih =>
    intro d p l h d' b H e
    unfold binSearchLoop at e
    obtain ⟨d1, r, hr⟩ : ∃ d1 r, readPage d (h % c.N) = (d1, r) := ⟨_, _, rfl⟩
    have s1 := H.read (h % c.N)
    rw [hr] at e s1
    simp only at e s1
    split_ifs at e with h2
    · exact ih _ _ _ _ _ _ s1.1 e
    · exact ih _ _ _ _ _ _ s1.1 e
    · cases e; exact ⟨s1.1, fun _ => s1.2 h2⟩
    · cases e; exact ⟨s1.1, fun h => by cases h⟩

theorem Honest.spline {key : Nat} {d d' : Data} {b : Bool} (H : Honest c S d) (e : splineSearch c d key = .ok (d', b)) :
    Honest c S d' ∧ (b = true → d'.buffered ≠ none) := by
  unfold splineSearch at e
  obtain ⟨r, hr, e⟩ := Res.bind_eq_ok e
  simp only at e
  split_ifs at e with h1 h2
  · cases e; exact ⟨H, fun h => by cases h⟩
  all_goals first
    | exact H.lin _ _ _ _ _ _ _ e
    | (cases e
       refine ⟨H, fun _ hn => ?_⟩
       rename_i h3 _
       rw [hn] at h3
       cases h3)

/-- `embedDBSearchNode` answers with a slot in use whose key compares equal. -/
theorem nodeLoop_slot {p : Page} {key : Nat} : ∀ (f : Nat) (first last middle : Int) (i : Nat),
    0 ≤ first → last < pageCount p → (first ≤ last → first ≤ middle ∧ middle ≤ last ∨ 0 ≤ middle ∧ middle < pageCount p) →
    nodeLoop c p key f first last middle = .ok (some i) → i < pageCount p ∧ c.cmpKey (slotKey c p i) key = 0 := by
  intro f
  induction f with
  | zero => intro _ _ _ i _ _ _ e; simp [nodeLoop] at e
  | succ f ih =>
    intro first last middle i h0 hl hm e
    unfold nodeLoop at e
    by_cases hle : first ≤ last
    · rw [if_pos hle] at e
      simp only at e
      have hm' := hm hle
      split_ifs at e with c1 c2
      · refine ih _ _ _ i (by omega) hl (fun h => ?_) e
        have := Int.tdiv_nonneg (a := middle + 1 + last) (b := 2) (by omega) (by omega)
        have : (middle + 1 + last).tdiv 2 = (middle + 1 + last) / 2 := Int.tdiv_eq_ediv_of_nonneg (by omega)
        omega
      · cases e
        exact ⟨by omega, c2⟩
      · refine ih _ _ _ i h0 (by omega) (fun h => ?_) e
        have : (first + (middle - 1)).tdiv 2 = (first + (middle - 1)) / 2 := Int.tdiv_eq_ediv_of_nonneg (by omega)
        omega
    · rw [if_neg hle] at e
      cases e

theorem searchNode_slot {p : Page} {key i : Nat} (e : searchNode c p key = .ok (some i)) :
    i < pageCount p ∧ c.cmpKey (slotKey c p i) key = 0 := by
  unfold searchNode at e
  simp only at e
  refine nodeLoop_slot _ _ _ _ i (le_refl _) (by omega) (fun h => ?_) e
  have : ((pageCount p : Int) - 1).tdiv 2 = ((pageCount p : Int) - 1) / 2 := Int.tdiv_eq_ediv_of_nonneg (by omega)
  split_ifs <;> omega

/-- What a lookup may answer. -/
def Told (c : Cfg) (S : List Rec) (key : Nat) (r : Int) (out : Option (List Byte)) : Prop :=
  (r = 0 ∨ r = -1) ∧ (r = 0 → out ≠ none) ∧ ∀ v, out = some v → ∃ k, (k, v) ∈ S ∧ c.cmpKey k key = 0

theorem Told.none {key : Nat} : Told c S key (-1) none := ⟨Or.inr rfl, fun h => (by cases h), fun _ h => (by cases h)⟩

theorem Told.slot {key i : Nat} {p : Page} (f : Fine c S p) (e : searchNode c p key = .ok (some i))
    {r : Int} (hr : r = 0 ∨ r = -1) : Told c S key r (some (slotData c p i)) := by
  obtain ⟨h1, h2⟩ := searchNode_slot e
  refine ⟨hr, fun _ => by simp, fun v hv => ?_⟩
  cases hv
  exact ⟨_, f _ (mem_recs.mpr ⟨i, h1, rfl⟩), h2⟩

theorem searchBuffer_told {p : Page} (f : Fine c S p) {key : Nat} {n : Int} {out : Option (List Byte)}
    (e : searchBuffer c p key = .ok (n, out)) : Told c S key (if n ≠ -1 then 0 else -1) out := by
  unfold searchBuffer at e
  split_ifs at e with h0
  · cases e; simp only [ne_eq, not_true, if_false]; exact Told.none
  · obtain ⟨o, h1, e⟩ := Res.bind_eq_ok e
    cases o with
    | none => cases e; simp only [ne_eq, not_true, if_false]; exact Told.none
    | some i =>
      cases e
      exact Told.slot f h1 (by split_ifs <;> simp)

theorem Honest.stored {key : Nat} {d d' : Data} {r : Int} {out : Option (List Byte)} (H : Honest c S d)
    (e : getStored c d key = .ok (d', r, out)) : Honest c S d' ∧ Told c S key r out := by
  unfold getStored at e
  have main : ∀ {x : Res (Data × Bool)}, (∀ d1 b, x = .ok (d1, b) → Honest c S d1 ∧ (b = true → d1.buffered ≠ none)) →
      (x >>= fun y => if y.2 then do
          match ← searchNode c y.1.rbuf key with
          | some i => .ok (y.1, 0, some (slotData c y.1.rbuf i))
          | none => .ok (y.1, -1, none)
        else .ok (y.1, -1, none)) = Res.ok (d', r, out) → Honest c S d' ∧ Told c S key r out := by
    intro x hx e
    obtain ⟨⟨d1, b⟩, h1, e⟩ := Res.bind_eq_ok e
    have s1 := hx d1 b h1
    simp only at e
    split_ifs at e with hb
    · obtain ⟨i, h2, e⟩ := Res.bind_eq_ok e
      cases i with
      | none => cases e; exact ⟨s1.1, Told.none⟩
      | some i => cases e; exact ⟨s1.1, Told.slot (s1.1.cache (s1.2 hb)) h2 (Or.inl rfl)⟩
    · cases e; exact ⟨s1.1, Told.none⟩
  simp only at e
  split_ifs at e
  · exact main (fun d1 b h => H.bin _ _ _ _ _ _ _ h) e
  · exact main (fun d1 b h => H.spline h) e

theorem Honest.get {key : Nat} {d d' : Data} {r : Int} {out : Option (List Byte)} (H : Honest c S d)
    (e : get c d key = .ok (d', r, out)) : Honest c S d' ∧ Told c S key r out := by
  unfold EDB.get at e
  split_ifs at e
  · obtain ⟨⟨n, o⟩, h1, e⟩ := Res.bind_eq_ok e
    cases e; exact ⟨H, searchBuffer_told H.wb h1⟩
  · cases e; exact ⟨H, Told.none⟩
  · obtain ⟨⟨n, o⟩, h1, e⟩ := Res.bind_eq_ok e
    cases e; exact ⟨H, searchBuffer_told H.wb h1⟩
  · exact H.stored e
  · exact H.stored e

/-! ### Iterators -/

/-- The record passes the four tests of `embedDBNext`. -/
def Passes (c : Cfg) (it : Iter) (r : Rec) : Prop :=
  it.minKey.any (fun b => c.cmpKey r.1 b < 0) = false ∧ it.maxKey.any (fun b => c.cmpKey r.1 b > 0) = false ∧
  it.minData.any (fun b => c.cmpData r.2 b < 0) = false ∧ it.maxData.any (fun b => c.cmpData r.2 b > 0) = false

theorem recLoop_told {it : Iter} {p : Page} : ∀ (f i j : Nat) (r : Rec), f + i ≤ pageCount p ∨ f = 0 →
    recLoop c it p f i = (j, some (some r)) → r ∈ recs c p ∧ Passes c it r := by
  intro f
  induction f with
  | zero => intro i j r _ e; simp [recLoop] at e
  | succ f ih =>
    intro i j r h e
    unfold recLoop at e
    simp only at e
    split_ifs at e with h1 h2 h3 h4
    · exact ih _ _ _ (by omega) e
    · cases e
    · exact ih _ _ _ (by omega) e
    · exact ih _ _ _ (by omega) e
    · simp only [Prod.mk.injEq, Option.some.injEq] at e
      obtain ⟨-, rfl⟩ := e
      refine ⟨mem_recs.mpr ⟨i, by omega, rfl⟩, ?_⟩
      exact ⟨by simpa using h1, by simpa using h2, by simpa using h3, by simpa using h4⟩

theorem Honest.nextLoop : ∀ (f : Nat) (d : Data) (x : Idx) (it : Iter) (d' : Data) (x' : Idx) (it' : Iter)
    (out : Option Rec), Honest c S d → nextLoop c f d x it = .ok (d', x', it', out) →
    Honest c S d' ∧ (∀ r, out = some r → r ∈ S ∧ Passes c it r) ∧
      it'.minKey = it.minKey ∧ it'.maxKey = it.maxKey ∧ it'.minData = it.minData ∧ it'.maxData = it.maxData := by
  intro f
  induction f with
  | zero => intro d x it d' x' it' out _ e; simp [EDB.nextLoop] at e
  | succ f ih =>
    intro d x it d' x' it' out H e
    unfold EDB.nextLoop at e
    by_cases h1 : it.page > d.next
    · rw [if_pos h1] at e
      cases e; exact ⟨H, fun _ h => (by cases h), rfl, rfl, rfl, rfl⟩
    · rw [if_neg h1] at e
      obtain ⟨⟨x1, sk⟩, _, e⟩ := Res.bind_eq_ok e
      cases sk with
      | none => cases e; exact ⟨H, fun _ h => (by cases h), rfl, rfl, rfl, rfl⟩
      | some sk =>
        cases sk with
        | true =>
          exact ih d x1 { it with page := it.page + 1 } d' x' it' out H e
        | false =>
          simp only at e
          obtain ⟨d1, r, hr⟩ : ∃ d1 r, (if it.page = d.next then (d, true) else readPage d (it.page % c.N)) = (d1, r) :=
            ⟨_, _, rfl⟩
          have s1 : Honest c S d1 ∧ (r = true → Fine c S (if it.page = d1.next then d1.wbuf else d1.rbuf)) := by
            by_cases hp : it.page = d.next
            · rw [if_pos hp] at hr
              cases hr
              exact ⟨H, fun _ => by rw [if_pos hp]; exact H.wb⟩
            · rw [if_neg hp] at hr
              have := H.read (it.page % c.N)
              have hs := readPage_same d (it.page % c.N)
              rw [hr] at this hs
              exact ⟨this.1, fun h => by
                rw [show d1.next = d.next from hs.next, if_neg hp]; exact this.1.cache (this.2 h)⟩
          rw [hr] at e
          simp only at e
          cases r with
          | false =>
            simp only [Bool.false_eq_true, if_false] at e
            cases e; exact ⟨s1.1, fun _ h => (by cases h), rfl, rfl, rfl, rfl⟩
          | true =>
            simp only [if_true] at e
            have fine := s1.2 rfl
            generalize hpp : (if it.page = d1.next then d1.wbuf else d1.rbuf) = pp at e fine
            split at e
            · exact ih d1 x1 { it with page := it.page + 1, slot := 0 } d' x' it' out s1.1 e
            · rename_i i o hrl
              cases e
              refine ⟨s1.1, fun r hr => ?_, rfl, rfl, rfl, rfl⟩
              subst hr
              obtain ⟨m1, m2⟩ := recLoop_told _ _ _ _ (by omega) hrl
              exact ⟨fine _ m1, m2⟩

theorem Honest.collect : ∀ (f : Nat) (d : Data) (x : Idx) (it : Iter) (d' : Data) (x' : Idx) (it' : Iter)
    (out : List Rec), Honest c S d → collect c f d x it = .ok (d', x', it', out) →
    Honest c S d' ∧ ∀ r ∈ out, r ∈ S ∧ Passes c it r := by
  intro f
  induction f with
  | zero => intro d x it d' x' it' out _ e; simp [EDB.collect] at e
  | succ f ih =>
    intro d x it d' x' it' out H e
    unfold EDB.collect at e
    obtain ⟨⟨d1, x1, it1, o⟩, h1, e⟩ := Res.bind_eq_ok e
    obtain ⟨s1, s2, s3, s4, s5, s6⟩ := H.nextLoop _ _ _ _ _ _ _ _ h1
    cases o with
    | none => cases e; exact ⟨s1, fun _ h => by cases h⟩
    | some r =>
      obtain ⟨⟨d2, x2, it2, rs⟩, h2, e⟩ := Res.bind_eq_ok e
      cases e
      obtain ⟨t1, t2⟩ := ih _ _ _ _ _ _ _ s1 h2
      refine ⟨t1, fun r' hr' => ?_⟩
      rcases List.mem_cons.mp hr' with rfl | hr'
      · exact s2 _ rfl
      · obtain ⟨u1, u2⟩ := t2 r' hr'
        unfold Passes at u2 ⊢
        rw [s3, s4, s5, s6] at u2
        exact ⟨u1, u2⟩

theorem initIter_bounds {d : Data} {q : Range} {it : Iter} (h : initIter c d q.minKey q.maxKey q.minData q.maxData = .ok it) :
    it.minKey = q.minKey ∧ it.maxKey = q.maxKey ∧ it.minData = q.minData ∧ it.maxData = q.maxData := by
  unfold initIter at h
  simp only at h
  by_cases hb : c.binSearch = true
  · rw [if_pos hb] at h; cases h
  rw [if_neg hb] at h
  by_cases hc : d.spl.count ≠ 0
  · rw [if_pos hc] at h
    cases hk : q.minKey with
    | none => rw [hk] at h; cases h; exact ⟨rfl, rfl, rfl, rfl⟩
    | some k =>
      rw [hk] at h
      obtain ⟨f, _, h⟩ := Res.bind_eq_ok h
      cases h; exact ⟨rfl, rfl, rfl, rfl⟩
  · rw [if_neg hc] at h
    cases h; exact ⟨rfl, rfl, rfl, rfl⟩

theorem Honest.scan {d d' : Data} {x x' : Idx} {q : Range} {rs : List Rec} (H : Honest c S d)
    (e : scanAll c d x q = .ok (d', x', rs)) : Honest c S d' ∧
      ∀ r ∈ rs, r ∈ S ∧ ∃ it : Iter, (it.minKey = q.minKey ∧ it.maxKey = q.maxKey ∧ it.minData = q.minData ∧ it.maxData = q.maxData) ∧
        Passes c it r := by
  unfold scanAll at e
  obtain ⟨it, h1, e⟩ := Res.bind_eq_ok e
  obtain ⟨⟨d2, x2, it2, rs2⟩, h2, e⟩ := Res.bind_eq_ok e
  cases e
  obtain ⟨t1, t2⟩ := H.collect _ _ _ _ _ _ _ _ h2
  refine ⟨t1, fun r hr => ⟨(t2 r hr).1, it, ?_, (t2 r hr).2⟩⟩
  exact initIter_bounds h1

/-! ### Inserts and flushes -/

theorem Honest.order {d : Data} (H : Honest c S d) (key : Nat) : Honest c S (orderCheck c d key).1 := by
  unfold orderCheck
  simp only
  split_ifs
  · exact (H.read _).1
  · exact H
  · exact H

theorem Honest.clean {d d' : Data} (H : Honest c S d) (e : cleanStep c d = .ok d') : Honest c S d' := by
  unfold cleanStep at e
  split_ifs at e
  · cases e; exact H
  · cases e; exact ⟨H.dev, H.wb, H.cache⟩

theorem Honest.writePage (hE : EraseFine c) {d d' : Data} {pn : Option Nat} (H : Honest c S d)
    (e : writePage c d = .ok (d', pn)) : Honest c S d' := by
  unfold EDB.writePage at e
  simp only at e
  have fine : Fine c S (wr d.wbuf 0 (leBytes 4 d.next)) := H.wb.same (sameRecs_id c d.wbuf d.next)
  have last : ∀ {d1 d' : Data} {pn : Option Nat}, Honest c S d1 →
      (if (d1.dev.write c (d.next % c.N) d1.wbuf).2 = true then
        Res.ok ({ d1 with dev := (d1.dev.write c (d.next % c.N) d1.wbuf).1, avail := d1.avail - 1 }, some d.next)
      else Res.ok ({ d1 with dev := (d1.dev.write c (d.next % c.N) d1.wbuf).1 }, none)) = .ok (d', pn) → Honest c S d' := by
    intro d1 d' pn H1 e
    have := H1.dev.write (d.next % c.N) H1.wb
    split_ifs at e <;> (cases e; exact ⟨this, H1.wb, H1.cache⟩)
  split_ifs at e with h1 h2
  · obtain ⟨d1, h3, e⟩ := Res.bind_eq_ok e
    refine last (Honest.clean ?_ h3) e
    exact ⟨H.dev.erase hE _ _, fine, H.cache⟩
  · cases e
    exact ⟨H.dev.erase hE _ _, fine, H.cache⟩
  all_goals
    cases e
    exact ⟨H.dev.write _ fine, fine, H.cache⟩

theorem Honest.indexPage {d : Data} (H : Honest c S d) (pn : Option Nat) : Honest c S (indexPage c d pn) := by
  unfold EDB.indexPage
  split_ifs
  · exact H
  · exact ⟨H.dev, H.wb, H.cache⟩

theorem HonestDev.eraseBlocks (hE : EraseFine c) : ∀ (n : Nat) {v : Dev} (start : Nat), HonestDev c S v →
    HonestDev c S (eraseBlocks c v start n).1 := by
  intro n
  induction n with
  | zero => intro v start h; exact h
  | succ n ih =>
    intro v start h
    unfold EDB.eraseBlocks
    have := h.erase hE start (start + c.B)
    simp only
    split_ifs
    · exact ih _ this
    · exact this

theorem Honest.shift (hE : EraseFine c) {d d' : Data} (H : Honest c S d) (e : shiftRlc c d = .ok d') : Honest c S d' := by
  unfold shiftRlc at e
  simp only at e
  have H1 : ∀ n, HonestDev c S (EDB.eraseBlocks c d.dev d.rlcStart n).1 := fun n => H.dev.eraseBlocks hE n _
  generalize (if d.min % c.N = (d.rlcStart + c.B * 2) % c.N then 2 else 3) = n at e
  by_cases he : (EDB.eraseBlocks c d.dev d.rlcStart n).2 = true
  · rw [if_pos he] at e
    split_ifs at e
    all_goals
      obtain ⟨d1, h1, e⟩ := Res.bind_eq_ok e
      have h2 : Honest c S d1 := by
        first
          | exact Honest.clean (d := { d with dev := (EDB.eraseBlocks c d.dev d.rlcStart n).1, avail := d.avail + c.B, min := d.min + c.B })
              ⟨H1 _, H.wb, H.cache⟩ h1
          | (cases h1; exact ⟨H1 _, H.wb, H.cache⟩)
      cases e
      exact ⟨h2.dev, h2.wb, h2.cache⟩
  · rw [if_neg he] at e
    cases e; exact ⟨H1 _, H.wb, H.cache⟩

theorem Honest.temp (hE : EraseFine c) {d : Data} (H : Honest c S d) : Honest c S (writeTemp c d).1 := by
  unfold writeTemp
  simp only
  have fine : Fine c S (wr d.wbuf 0 (leBytes 4 d.next)) := H.wb.same (sameRecs_id c d.wbuf d.next)
  refine ⟨HonestDev.write ?_ _ fine, fine, H.cache⟩
  split_ifs
  · exact H.dev.erase hE _ _
  · exact H.dev.erase hE _ _
  · exact H.dev

theorem Honest.finish (hL : c.Layout) (hcap : c.maxRec ≤ 65535) (hE : EraseFine c) {d d' : Data} {wrote w : Bool} {key : Nat}
    {data : List Byte} {loc : Nat} {r : Int} (H : Honest c S d) (hn : pageCount d.wbuf < c.maxRec)
    (hd : data.length = c.dataSize) (hk : key < 256 ^ c.keySize) (hm : (key, data) ∈ S)
    (e : finishPut c d wrote key data loc = .ok (d', r, w)) : Honest c S d' := by
  have H1 : Honest c S { d with wbuf := appendRec c d.wbuf key data loc } :=
    ⟨H.dev, H.wb.append hL hcap hn loc hd hk hm, H.cache⟩
  unfold finishPut at e
  simp only at e
  split_ifs at e
  · obtain ⟨d1, h1, e⟩ := Res.bind_eq_ok e
    cases e
    exact (H1.shift hE h1).temp hE
  · cases e; exact H1.temp hE
  · cases e; exact H1


theorem Honest.putX (hL : c.Layout) (hcap0 : 0 < c.maxRec) (hcap : c.maxRec ≤ 65535) (hE : EraseFine c) {d d' : Data} {x x' : Idx}
    {w : Bool} {key : Nat} {data : List Byte} {loc : Nat} {r : Int} (H : Honest c S d)
    (hd : data.length = c.dataSize) (hk : key < 256 ^ c.keySize)
    (e : putX c d x key data loc = .ok (d', x', r, w)) : Honest c (S ++ Spec.gained (.put key data) (.code r)) d' := by
  have hsub : ∀ (T : List Rec), ∀ q ∈ S, q ∈ S ++ T := fun T q hq => List.mem_append_left _ hq
  -- only the order check refuses with 1
  have hne : ∀ {d d' : Data} {b w : Bool} {r : Int}, finishPut c d b key data loc = .ok (d', r, w) → r ≠ 1 := by
    intro d d' b w r h
    unfold finishPut at h
    simp only at h
    split_ifs at h
    · obtain ⟨d1, -, h⟩ := Res.bind_eq_ok h
      simp only [Res.ok.injEq, Prod.mk.injEq] at h
      rw [← h.2.1]
      unfold writeTemp
      simp only
      split_ifs <;> decide
    · simp only [Res.ok.injEq, Prod.mk.injEq] at h
      rw [← h.2.1]
      unfold writeTemp
      simp only
      split_ifs <;> decide
    · simp only [Res.ok.injEq, Prod.mk.injEq] at h
      rw [← h.2.1]; decide
  have ht : ∀ {r : Int}, r ≠ 1 → (key, data) ∈ S ++ Spec.gained (.put key data) (.code r) := by
    intro r hr
    have : Spec.gained (.put key data) (.code r) = [(key, data)] := if_neg hr
    rw [this]
    exact List.mem_append_right _ List.mem_cons_self
  unfold EDB.putX at e
  have H0 := H.order key
  have hw : (orderCheck c d key).1.wbuf = d.wbuf := (orderCheck_same (c := c) d key).wbuf
  generalize hoc : orderCheck c d key = oc at e H0 hw
  obtain ⟨d0, ok⟩ := oc
  simp only at e H0 hw
  cases ok with
  | false =>
    simp only [Bool.false_eq_true, if_false] at e
    cases e
    exact H0.mono (hsub _)
  | true =>
    simp only [if_true] at e
    by_cases hfull : pageCount d0.wbuf ≥ c.maxRec
    · rw [if_pos hfull] at e
      obtain ⟨⟨d1, pn⟩, h1, e⟩ := Res.bind_eq_ok e
      simp only at e
      have H1 := (H0.writePage hE h1).indexPage (c := c) pn
      have fin : ∀ {y : Res Idx}, (y >>= fun x => do
            let (d, r, w) ← finishPut c { EDB.indexPage c d1 pn with wbuf := initPage c } true key data loc
            Res.ok (d, x, r, w)) = .ok (d', x', r, w) → Honest c (S ++ Spec.gained (.put key data) (.code r)) d' := by
        intro y e
        obtain ⟨x1, _, e⟩ := Res.bind_eq_ok e
        obtain ⟨⟨d2, r2, w2⟩, h2, e⟩ := Res.bind_eq_ok e
        cases e
        have H2 : Honest c S { EDB.indexPage c d1 pn with wbuf := initPage c } := ⟨H1.dev, Fine.init, H1.cache⟩
        exact (H2.mono (hsub _)).finish hL hcap hE (by show pageCount (initPage c) < _; rw [count_init]; exact hcap0) hd hk
          (ht (hne h2)) h2
      split_ifs at e
      · exact fin e
      · exact fin e
    · rw [if_neg hfull] at e
      obtain ⟨⟨d2, r2, w2⟩, h2, e⟩ := Res.bind_eq_ok e
      cases e
      exact (H0.mono (hsub _)).finish hL hcap hE (by omega) hd hk (ht (hne h2)) h2

theorem Honest.flushX (hE : EraseFine c) {d d' : Data} {x x' : Idx} {w : Bool} {r : Int} (H : Honest c S d)
    (e : flushX c d x = .ok (d', x', r, w)) : Honest c S d' := by
  unfold EDB.flushX at e
  by_cases h0 : pageCount d.wbuf < 1
  · rw [if_pos h0] at e
    cases e; exact H
  · rw [if_neg h0] at e
    obtain ⟨⟨d1, pn⟩, h1, e⟩ := Res.bind_eq_ok e
    have H1 := H.writePage hE h1
    cases pn with
    | none => cases e; exact H1
    | some n =>
      have H2 := H1.indexPage (c := c) (some n)
      simp only at e
      cases hu : c.useIndex with
      | false =>
        rw [hu] at e
        simp only [Bool.false_eq_true, if_false] at e
        cases e; exact ⟨H2.dev, Fine.init, H2.cache⟩
      | true =>
        rw [hu] at e
        simp only [if_true] at e
        obtain ⟨⟨x1, ok⟩, _, e⟩ := Res.bind_eq_ok e
        simp only at e
        split_ifs at e
        · cases e; exact ⟨H2.dev, Fine.init, H2.cache⟩
        · cases e; exact H2

theorem Honest.stepX (hL : c.Layout) (hcap0 : 0 < c.maxRec) (hcap : c.maxRec ≤ 65535) (hE : EraseFine c) {d d' : Data} {x x' : Idx}
    {op : Op} {o : Out} (H : Honest c S d) (hput : ∀ k v, op = .put k v → v.length = c.dataSize ∧ k < 256 ^ c.keySize)
    (e : stepX c d x op = .ok (d', x', o)) : Honest c (S ++ Spec.gained op o) d' := by
  have hsub : ∀ (T : List Rec), ∀ q ∈ S, q ∈ S ++ T := fun T q hq => List.mem_append_left _ hq
  cases op with
  | put k v =>
    unfold EDB.stepX at e
    obtain ⟨⟨d1, x1, r, w⟩, h1, e⟩ := Res.bind_eq_ok e
    cases e
    exact H.putX hL hcap0 hcap hE (hput k v rfl).1 (hput k v rfl).2 h1
  | flush =>
    unfold EDB.stepX at e
    obtain ⟨⟨d1, x1, r, w⟩, h1, e⟩ := Res.bind_eq_ok e
    cases e
    exact (H.flushX hE h1).mono (hsub _)
  | get k =>
    unfold EDB.stepX at e
    obtain ⟨⟨d1, r, out⟩, h1, e⟩ := Res.bind_eq_ok e
    cases e
    exact (H.get h1).1.mono (hsub _)
  | scan q =>
    unfold EDB.stepX at e
    obtain ⟨⟨d1, x1, rs⟩, h1, e⟩ := Res.bind_eq_ok e
    cases e
    exact (H.scan h1).1.mono (hsub _)

/-! ### Opening an existing file -/

theorem Honest.probe : ∀ (n : Nat) (d : Data) (pos : Nat) (more : Bool), Honest c S d → Honest c S (probe c n d pos more).d := by
  intro n
  induction n with
  | zero => intro d pos more H; exact H
  | succ n ih =>
    intro d pos more H
    unfold EDB.probe
    split_ifs
    · exact (H.read _).1
    · exact ih _ _ _ (H.read _).1
    · exact H

theorem Honest.follow : ∀ (n : Nat) (d : Data) (pos last : Nat) (more : Bool), Honest c S d →
    Honest c S (follow c n d pos last more).1 := by
  intro n
  induction n with
  | zero => intro d pos last more H; exact H
  | succ n ih =>
    intro d pos last more H
    unfold EDB.follow
    split_ifs
    · exact ih _ _ _ _ (H.read _).1
    · exact H
    · exact H

theorem Honest.splineFrom : ∀ (n : Nat) (d : Data) (pg : Nat), Honest c S d → Honest c S (splineFrom c n d pg) := by
  intro n
  induction n with
  | zero => intro d pg H; exact H
  | succ n ih =>
    intro d pg H
    unfold EDB.splineFrom
    have := (H.read (pg % c.N)).1
    exact ih _ _ ⟨this.dev, this.wb, this.cache⟩

theorem Honest.setCounters {d : Data} (H : Honest c S d) (last smallest reserved : Nat) :
    Honest c S (setCounters c d last smallest reserved) := by
  unfold EDB.setCounters
  simp only
  have h1 : Honest c S { d with next := (last + 1) % 2 ^ 32 } := ⟨H.dev, H.wb, H.cache⟩
  have h2 := (h1.read smallest).1
  generalize (readPage { d with next := (last + 1) % 2 ^ 32 } smallest).1 = d2 at h2 ⊢
  have h3 : Honest c S { d2 with min := pageId d2.rbuf, avail := u32 (c.N + pageId d2.rbuf - last - 1 - reserved) } :=
    ⟨h2.dev, h2.wb, h2.cache⟩
  split_ifs
  · exact (h3.read _).1
  · exact Honest.splineFrom _ _ _ (h3.read _).1

theorem Honest.recoverPlain {d : Data} (H : Honest c S d) : Honest c S (recoverPlain c d).1 := by
  unfold EDB.recoverPlain
  simp only
  have h1 := (H.read 0).1
  have h2 := Honest.probe 2 _ 0 (readPage d 0).2 h1
  split
  · exact h2
  · rename_i last _
    have h3 := Honest.follow (c := c) c.N _ (EDB.probe c 2 (readPage d 0).1 0 (readPage d 0).2).pos last
      (EDB.probe c 2 (readPage d 0).1 0 (readPage d 0).2).more h2
    generalize EDB.follow c c.N _ _ _ _ = fl at h3 ⊢
    obtain ⟨d3, pos, last', more⟩ := fl
    simp only at h3 ⊢
    unfold finishRecover
    split_ifs
    · simp only
      split_ifs
      all_goals first | exact (h3.read _).1.setCounters _ _ _ | exact (h3.read _).1
    · exact h3.setCounters _ _ _

theorem Honest.rlcScan {want : Nat → Bool} : ∀ (n : Nat) (d : Data) (ph i : Nat) (best : Option (Nat × Nat)) (more : Bool),
    Honest c S d → Honest c S (rlcScan c want n d ph i best more).1 := by
  intro n
  induction n with
  | zero => intro d ph i best more H; exact H
  | succ n ih =>
    intro d ph i best more H
    unfold EDB.rlcScan
    cases more with
    | true => exact ih _ _ _ _ _ (H.read _).1
    | false => exact H

theorem HonestDev.eraseRlc (hE : EraseFine c) : ∀ (n : Nat) {v : Dev} (start : Nat), HonestDev c S v →
    HonestDev c S (eraseRlc c v start n).1 := by
  intro n
  induction n with
  | zero => intro v start h; exact h
  | succ n ih =>
    intro v start h
    unfold EDB.eraseRlc
    have := h.erase hE start (start + c.B)
    simp only
    split_ifs
    · exact ih _ this
    · exact this

theorem Honest.finishRlc {d : Data} (H : Honest c S d) (last : Option Nat) : Honest c S (finishRlc c d last).1 := by
  unfold EDB.finishRlc
  cases last with
  | none => exact H
  | some l => exact (H.read _).1.setCounters _ _ _

theorem Honest.rlcTemp (hE : EraseFine c) {d : Data} (H : Honest c S d) (pos : Nat) (last : Option Nat) :
    Honest c S (rlcTemp c d pos last).1 := by
  unfold EDB.rlcTemp
  simp only
  have h1 : Honest c S { d with rlcStart := (pos + (c.B - pos % c.B)) % c.N, rlcNext := (pos + (c.B - pos % c.B)) % c.N } :=
    ⟨H.dev, H.wb, H.cache⟩
  have h2 := (h1.read ((pos + (c.B - pos % c.B)) % c.N)).1
  generalize hw : (fun id : Nat => decide (id = (last.getD 0 + 1) % 2 ^ 32 ∨ id = 0 ∧ last = none)) = want
  have h3 := Honest.rlcScan (want := want) (2 * c.B) _ ((pos + (c.B - pos % c.B)) % c.N) 0 none
    (readPage { d with rlcStart := (pos + (c.B - pos % c.B)) % c.N, rlcNext := (pos + (c.B - pos % c.B)) % c.N } ((pos + (c.B - pos % c.B)) % c.N)).2 h2
  generalize EDB.rlcScan c want (2 * c.B) _ _ _ _ _ = rs at h3 ⊢
  obtain ⟨d3, best⟩ := rs
  simp only at h3 ⊢
  cases best with
  | none =>
    simp only
    have h4 := h3.dev.eraseRlc hE 2 ((pos + (c.B - pos % c.B)) % c.N % c.N)
    have h5 : Honest c S { d3 with dev := (EDB.eraseRlc c d3.dev ((pos + (c.B - pos % c.B)) % c.N % c.N) 2).1 } :=
      ⟨h4, h3.wb, h3.cache⟩
    split_ifs
    · exact h5.finishRlc _
    · exact h5
  | some b =>
    obtain ⟨m, j⟩ := b
    simp only
    have h4 : Honest c S { d3 with rlcNext := ((pos + (c.B - pos % c.B)) % c.N + j + 1) % c.N } := ⟨h3.dev, h3.wb, h3.cache⟩
    have h5 := h4.read (((pos + (c.B - pos % c.B)) % c.N + j) % c.N)
    generalize readPage { d3 with rlcNext := ((pos + (c.B - pos % c.B)) % c.N + j + 1) % c.N } _ = rp at h5 ⊢
    obtain ⟨d5, ok⟩ := rp
    simp only at h5 ⊢
    cases ok with
    | false => simp only [Bool.false_eq_true, if_false]; exact h5.1
    | true =>
      simp only [if_true]
      have hr := h5.1.cache (h5.2 rfl)
      have h6 : ∀ s, Honest c S { d5 with wbuf := d5.rbuf, dev := (EDB.eraseRlc c d5.dev s 1).1 } :=
        fun s => ⟨h5.1.dev.eraseRlc hE 1 s, hr, h5.1.cache⟩
      split_ifs
      all_goals first
        | exact (h6 _).finishRlc _
        | exact h6 _

theorem Honest.recoverRlc (hE : EraseFine c) {d : Data} (H : Honest c S d) : Honest c S (recoverRlc c d).1 := by
  have bnd : ∀ {d : Data}, Honest c S d → ∀ pos last, Honest c S (rlcBoundary c d pos last).1 := by
    intro d H pos last
    unfold rlcBoundary
    have h1 : Honest c S { d with dev := (d.dev.erase c pos (pos + c.B)).1 } := ⟨H.dev.erase hE pos (pos + c.B), H.wb, H.cache⟩
    simp only
    split_ifs
    · exact h1.rlcTemp hE _ _
    · exact h1
    · exact H.rlcTemp hE _ _
  unfold EDB.recoverRlc
  simp only
  have h1 := (H.read 0).1
  have h2 := Honest.probe 4 _ 0 (readPage d 0).2 h1
  split
  · exact bnd h2 _ _
  · rename_i last _
    have h3 := Honest.follow (c := c) c.N _ (EDB.probe c 4 (readPage d 0).1 0 (readPage d 0).2).pos last
      (EDB.probe c 4 (readPage d 0).1 0 (readPage d 0).2).more h2
    generalize EDB.follow c c.N _ _ _ _ = fl at h3 ⊢
    obtain ⟨d3, pos, last', more⟩ := fl
    exact bnd h3 _ _

theorem Honest.opening {v : Dev} (h : HonestDev c S v) (rb : Page) (sm : Nat → Nat × Nat) :
    Honest c S (Data.opening c v rb sm) := ⟨h, Fine.init, fun h => absurd rfl h⟩

theorem Honest.fresh (rb : Page) (sm : Nat → Nat × Nat) : Honest c [] (Data.fresh c rb sm) :=
  ⟨⟨fun _ _ h => (by cases h), fun _ _ h => (by cases h)⟩, Fine.init, fun h => absurd rfl h⟩

theorem Honest.recover (hE : EraseFine c) {v : Dev} (h : HonestDev c S v) (rb : Page) (sm : Nat → Nat × Nat) :
    Honest c S (recover c v rb sm).1 := by
  unfold EDB.recover
  split_ifs
  · exact (Honest.opening h rb sm).recoverRlc hE
  · exact (Honest.opening h rb sm).recoverPlain

/-! ### The whole life -/

theorem EraseFine.of (h : ∀ o q, c.eraseFx o = some q → ∀ r ∈ Spec.pageRecs c.hdr c.recSize c.keySize c.dataSize q,
    ∃ p, o = some p ∧ r ∈ Spec.pageRecs c.hdr c.recSize c.keySize c.dataSize p) : EraseFine c := by
  intro o q e r hr
  rw [recs_spec] at hr
  obtain ⟨p, hp, hr⟩ := h o q e r hr
  exact ⟨p, hp, by rw [recs_spec]; exact hr⟩

theorem Passes.has {K : Nat} (hcmp : CmpOk c.cmpKey K) {it : Iter} {q : Range} {r : Rec}
    (hq : it.minKey = q.minKey ∧ it.maxKey = q.maxKey ∧ it.minData = q.minData ∧ it.maxData = q.maxData)
    (hk : (∀ k, q.minKey = some k → k < K) ∧ ∀ k, q.maxKey = some k → k < K) (hr : r.1 < K) (h : Passes c it r) :
    q.has c.cmpData r = true := by
  obtain ⟨h1, h2, h3, h4⟩ := h
  rw [hq.1] at h1
  rw [hq.2.1] at h2
  rw [hq.2.2.1] at h3
  rw [hq.2.2.2] at h4
  obtain ⟨k1, k2⟩ := hk
  unfold Range.has
  rw [Bool.and_eq_true, Bool.and_eq_true, Bool.and_eq_true]
  refine ⟨⟨⟨?_, ?_⟩, ?_⟩, ?_⟩
  · cases hm : q.minKey with
    | none => rfl
    | some k =>
      rw [hm] at h1
      have := hcmp.lt r.1 k hr (k1 k hm)
      simp only [Option.any_some, decide_eq_false_iff_not] at h1
      simp only [Option.all_some, decide_eq_true_eq]
      omega
  · cases hm : q.maxKey with
    | none => rfl
    | some k =>
      rw [hm] at h2
      have := hcmp.pos hr (k2 k hm)
      simp only [Option.any_some, decide_eq_false_iff_not] at h2
      simp only [Option.all_some, decide_eq_true_eq]
      omega
  · cases hm : q.minData with
    | none => rfl
    | some k =>
      rw [hm] at h3
      simp only [Option.any_some, decide_eq_false_iff_not] at h3
      simp only [Option.all_some, decide_eq_true_eq]
      omega
  · cases hm : q.maxData with
    | none => rfl
    | some k =>
      rw [hm] at h4
      simp only [Option.any_some, decide_eq_false_iff_not] at h4
      simp only [Option.all_some, decide_eq_true_eq]
      omega

theorem Honest.without {d : Data} (h : Honest c S d) (bad : List Nat) : Honest c S (d.without bad) := by
  refine ⟨⟨fun i p hp => ?_, h.dev.log⟩, h.wb, h.cache⟩
  change (if i ∈ bad then none else d.dev.file i) = some p at hp
  split_ifs at hp
  exact h.dev.file i p hp

theorem Honest.withDev {d d' : Data} (h : Honest c S d) (h' : Honest c S d') : Honest c S { d' with dev := d.dev } :=
  ⟨h.dev, h'.wb, h'.cache⟩

/-- What is known after any past. -/
structure KnownPast (c : Cfg) (K : Nat) (d : Data) (its : Nat → Option Iter) (b : Nat → Option Range) (S : List Rec) : Prop where
  honest : Honest c S d
  keys : ∀ r ∈ S, r.1 < K
  its : ∀ i it, its i = some it → ∃ q, b i = some q ∧
    (it.minKey = q.minKey ∧ it.maxKey = q.maxKey ∧ it.minData = q.minData ∧ it.maxData = q.maxData) ∧
    (∀ k, q.minKey = some k → k < K) ∧ ∀ k, q.maxKey = some k → k < K

theorem KnownPast.opened {K : Nat} {d d' : Data} {its : Nat → Option Iter} {b : Nat → Option Range} (H : KnownPast c K d its b S)
    (h : Honest c S d') {i : Nat} {it : Iter} {q : Range}
    (hq : it.minKey = q.minKey ∧ it.maxKey = q.maxKey ∧ it.minData = q.minData ∧ it.maxData = q.maxData)
    (hk : (∀ k, q.minKey = some k → k < K) ∧ ∀ k, q.maxKey = some k → k < K) {b' : Nat → Option Range}
    (hb : ∀ j, b' j = if j = i then some q else b j) : KnownPast c K d' (Spec.setAt its i (some it)) b' S := by
  refine ⟨h, H.keys, fun j jt hj => ?_⟩
  unfold Spec.setAt at hj
  rw [hb j]
  split_ifs at hj ⊢ with h1
  · cases hj; exact ⟨q, rfl, hq, hk⟩
  · exact H.its j jt hj

theorem KnownPast.step {K : Nat} (hL : c.Layout) (hcap0 : 0 < c.maxRec) (hcap : c.maxRec ≤ 65535) (hE : EraseFine c)
    (hK : K ≤ 256 ^ c.keySize) (hcmp : CmpOk c.cmpKey K) {d d' : Data} {x x' : Idx} {its its' : Nat → Option Iter}
    {b : Nat → Option Range} {op : Spec.FOp} {o : Spec.MOut} (H : KnownPast c K d its b S) (hf : FOp.Fits c K op)
    (e : fstep (EDB.stepX c) c d x its op = .ok (d', x', its', o)) :
    KnownPast c K d' its' (Spec.boundsAfter b op) (S ++ Spec.gainedF op o) ∧ Spec.Genuine c.cmpData S b op o := by
  -- a lookup
  have hget : ∀ {d d1 : Data} {k : Nat} {r : Int} {out : Option (List Byte)}, Honest c S d → k < K →
      EDB.get c d k = .ok (d1, r, out) → Honest c S d1 ∧ (r = 0 ∨ r = -1) ∧ (r = 0 → out ≠ none) ∧ ∀ w, out = some w → (k, w) ∈ S := by
    intro d d1 k r out H1 hk e
    obtain ⟨h1, h2, h3, h4⟩ := H1.get e
    refine ⟨h1, h2, h3, fun w hw => ?_⟩
    obtain ⟨k', hm, hc⟩ := h4 w hw
    rw [(hcmp.eq k' k (H.keys _ hm) hk).mp hc] at hm
    exact hm
  -- an iterator
  have hnxt : ∀ {d d1 : Data} {x x1 : Idx} {i : Nat} {it it1 : Iter} {out : Option Rec}, Honest c S d → its i = some it →
      next c d x it = .ok (d1, x1, it1, out) → Honest c S d1 ∧ KnownPast c K d1 (Spec.setAt its i (some it1)) b S ∧
        ∀ w, out = some w → w ∈ S ∧ ∃ q, b i = some q ∧ q.has c.cmpData w = true := by
    intro d d1 x x1 i it it1 out H1 hi e
    obtain ⟨h1, h2, h3, h4, h5, h6⟩ := H1.nextLoop _ _ _ _ _ _ _ _ e
    obtain ⟨q, hq, hb, hk⟩ := H.its i it hi
    refine ⟨h1, ?_, fun w hw => ?_⟩
    · refine H.opened h1 (q := q) ⟨h3.trans hb.1, h4.trans hb.2.1, h5.trans hb.2.2.1, h6.trans hb.2.2.2⟩ hk (fun j => ?_)
      split_ifs with hj
      · rw [hj, hq]
      · rfl
    · obtain ⟨m1, m2⟩ := h2 w hw
      exact ⟨m1, q, hq, m2.has hcmp hb hk (H.keys _ m1)⟩
  cases op with
  | plain m =>
    cases m with
    | op o1 =>
      obtain ⟨⟨d1, x1, out⟩, h1, e⟩ := Res.bind_eq_ok e
      cases e
      have hput : ∀ k v, o1 = .put k v → v.length = c.dataSize ∧ k < 256 ^ c.keySize := by
        intro k v h
        have := hf.1 k v (by rw [h])
        exact ⟨this.2, by omega⟩
      have H1 := H.honest.stepX hL hcap0 hcap hE hput h1
      refine ⟨⟨H1, fun r hr => ?_, H.its⟩, ?_⟩
      · rcases List.mem_append.mp hr with hr | hr
        · exact H.keys r hr
        · cases o1 with
          | put k v =>
            cases out with
            | code r' =>
              change r ∈ (if r' = 1 then [] else [(k, v)]) at hr
              split_ifs at hr
              · cases hr
              · rw [List.mem_singleton.mp hr]; exact (hf.1 k v rfl).1
            | got _ _ => cases hr
            | rows _ => cases hr
          | flush => cases out <;> cases hr
          | get _ => cases out <;> cases hr
          | scan _ => cases out <;> cases hr
      · cases o1 with
        | put k v =>
          obtain ⟨⟨d2, x2, r, w⟩, h2, h1⟩ := Res.bind_eq_ok h1
          cases h1; exact ⟨r, rfl⟩
        | flush =>
          obtain ⟨⟨d2, x2, r, w⟩, h2, h1⟩ := Res.bind_eq_ok h1
          cases h1; exact ⟨r, rfl⟩
        | get k =>
          obtain ⟨⟨d2, r, out2⟩, h2, h1⟩ := Res.bind_eq_ok h1
          cases h1
          exact ⟨r, out2, rfl, (hget H.honest (hf.2.1 k rfl) h2).2⟩
        | scan q =>
          obtain ⟨⟨d2, x2, rs⟩, h2, h1⟩ := Res.bind_eq_ok h1
          cases h1
          refine ⟨rs, rfl, fun r hr => ?_⟩
          obtain ⟨m1, it, m2, m3⟩ := (H.honest.scan h2).2 r hr
          exact ⟨m1, m3.has hcmp m2 (hf.2.2 q (Or.inl rfl)) (H.keys _ m1)⟩
    | opn i q =>
      obtain ⟨it, h1, e⟩ := Res.bind_eq_ok e
      cases e
      refine ⟨?_, rfl⟩
      simp only [Spec.gainedF, List.append_nil]
      exact H.opened H.honest (initIter_bounds h1) (hf.2.2 q (Or.inr ⟨i, rfl⟩)) (fun j => rfl)
    | nxt i =>
      simp only [fstep, mstep] at e
      cases hi : its i with
      | none => rw [hi] at e; cases e
      | some it =>
        rw [hi] at e
        obtain ⟨⟨d1, x1, it1, out⟩, h1, e⟩ := Res.bind_eq_ok e
        cases e
        obtain ⟨-, g2, g3⟩ := hnxt H.honest hi h1
        refine ⟨?_, _, rfl, g3⟩
        simp only [Spec.gainedF, List.append_nil]
        exact g2
  | get k bad =>
    obtain ⟨⟨d1, r, out⟩, h1, e⟩ := Res.bind_eq_ok e
    cases e
    obtain ⟨g1, g2⟩ := hget (H.honest.without bad) (hf.2.1 k rfl) h1
    refine ⟨?_, r, out, rfl, g2⟩
    simp only [Spec.gainedF, List.append_nil]
    exact ⟨H.honest.withDev g1, H.keys, H.its⟩
  | nxt i bad badIdx =>
    simp only [fstep] at e
    cases hi : its i with
    | none => rw [hi] at e; cases e
    | some it =>
      rw [hi] at e
      obtain ⟨⟨d1, x1, it1, out⟩, h1, e⟩ := Res.bind_eq_ok e
      cases e
      obtain ⟨g1, g2, g3⟩ := hnxt (H.honest.without bad) hi h1
      refine ⟨?_, _, rfl, g3⟩
      simp only [Spec.gainedF, List.append_nil]
      exact ⟨H.honest.withDev g1, g2.keys, g2.its⟩

/-! ### Variable data -/

theorem Honest.copied {d : Data} (H : Honest c S d) : Honest c S { d with rbuf := d.wbuf } := ⟨H.dev, H.wb, fun _ => H.wb⟩

theorem Honest.getVar {key : Nat} {d d' : Data} {v v' : Var} {r : Int} {out : Option (List Byte)} {st : Option Stream} (H : Honest c S d)
    (e : getVar c d v key = .ok (d', v', r, out, st)) : Honest c S d' ∧ (c.useVdata = true → r = 0 ∨ r = 1 → out ≠ none) ∧
      ∀ w, out = some w → ∃ k, (k, w) ∈ S ∧ c.cmpKey k key = 0 := by
  unfold EDB.getVar at e
  by_cases hv : c.useVdata = true
  · rw [if_pos hv] at e
    obtain ⟨⟨n, o⟩, h1, e⟩ := Res.bind_eq_ok e
    have T := searchBuffer_told H.wb h1
    simp only at e
    by_cases hn : n ≠ -1
    · rw [if_pos hn] at e T
      split_ifs at e
      obtain ⟨⟨v1, s1, st1⟩, -, e⟩ := Res.bind_eq_ok e
      cases e
      exact ⟨H.copied, fun _ _ => T.2.1 rfl, T.2.2⟩
    · rw [if_neg hn] at e
      obtain ⟨⟨d1, r1, o1⟩, h2, e⟩ := Res.bind_eq_ok e
      obtain ⟨g1, g2⟩ := H.get h2
      simp only at e
      by_cases hr : r1 = 0
      · rw [if_pos hr] at e
        obtain ⟨i, -, e⟩ := Res.bind_eq_ok e
        cases i with
        | none => cases e
        | some i =>
          simp only at e
          split_ifs at e
          obtain ⟨⟨v1, s1, st1⟩, -, e⟩ := Res.bind_eq_ok e
          cases e
          exact ⟨g1, fun _ _ => g2.2.1 hr, g2.2.2⟩
      · rw [if_neg hr] at e
        cases e
        refine ⟨g1, fun _ h => ?_, fun _ h => (by cases h)⟩
        rcases h with h | h <;> cases h
  · rw [if_neg hv] at e
    cases e
    exact ⟨H, fun h => absurd h hv, fun _ h => (by cases h)⟩

theorem Honest.nextVar {d d' : Data} {x x' : Idx} {v v' : Var} {it it' : Iter} {out : Option (Rec × Option Stream)} (H : Honest c S d)
    (e : nextVar c d x v it = .ok (d', x', v', it', out)) : Honest c S d' ∧ (∀ w st, out = some (w, st) → w ∈ S ∧ Passes c it w) ∧
      it'.minKey = it.minKey ∧ it'.maxKey = it.maxKey ∧ it'.minData = it.minData ∧ it'.maxData = it.maxData := by
  unfold EDB.nextVar at e
  by_cases hv : c.useVdata = true
  · rw [if_pos hv] at e
    obtain ⟨⟨d1, x1, it1, o1⟩, h1, e⟩ := Res.bind_eq_ok e
    obtain ⟨g1, g2, g3⟩ := H.nextLoop _ _ _ _ _ _ _ _ h1
    simp only at e
    cases o1 with
    | none => cases e; exact ⟨g1, fun _ _ h => (by cases h), g3⟩
    | some w =>
      simp only at e
      obtain ⟨⟨v1, s1, st1⟩, -, e⟩ := Res.bind_eq_ok e
      simp only [Res.ok.injEq, Prod.mk.injEq] at e
      obtain ⟨e1, -, -, e4, e5⟩ := e
      subst e4
      refine ⟨?_, fun w' st' h => ?_, g3⟩
      · rw [← e1]
        split_ifs
        · exact g1.copied
        · exact g1
      · rw [← e5] at h
        split_ifs at h
        cases h
        exact g2 w rfl
  · rw [if_neg hv] at e
    cases e
    exact ⟨H, fun _ _ h => (by cases h), rfl, rfl, rfl, rfl⟩

theorem Honest.putVar (hL : c.Layout) (hcap0 : 0 < c.maxRec) (hcap : c.maxRec ≤ 65535) (hE : EraseFine c) {d d' : Data} {x x' : Idx}
    {v v' : Var} {key : Nat} {data : List Byte} {bs : Option (List Byte)} {r : Int} (H : Honest c S d)
    (hd : data.length = c.dataSize) (hk : key < 256 ^ c.keySize)
    (e : putVar c d x v key data bs = .ok (d', x', v', r)) : Honest c (S ++ Spec.gained (.put key data) (.code r)) d' := by
  unfold EDB.putVar at e
  by_cases hv : c.useVdata = true
  · rw [if_pos hv] at e
    cases bs with
    | none =>
      simp only at e
      obtain ⟨⟨d1, x1, r1, w1⟩, h1, e⟩ := Res.bind_eq_ok e
      cases e
      exact H.putX hL hcap0 hcap hE hd hk h1
    | some bs =>
      simp only at e
      obtain ⟨⟨d1, x1, r1, w1⟩, h1, e⟩ := Res.bind_eq_ok e
      have H1 := H.putX hL hcap0 hcap hE hd hk h1
      simp only at e
      by_cases hr : r1 ≠ 0
      · rw [if_pos hr] at e
        cases e; exact H1
      · rw [if_neg hr] at e
        obtain ⟨v1, -, e⟩ := Res.bind_eq_ok e
        simp only [Res.ok.injEq, Prod.mk.injEq] at e
        obtain ⟨e1, -, -, e4⟩ := e
        subst e1
        rw [← e4]
        rwa [show r1 = 0 by omega] at H1
  · rw [if_neg hv] at e
    cases e
    exact H.mono (fun q hq => List.mem_append_left _ hq)

theorem Honest.flushV (hE : EraseFine c) {d d' : Data} {x x' : Idx} {v v' : Var} {r : Int} (H : Honest c S d)
    (e : flushV c d x v = .ok (d', x', v', r)) : Honest c S d' := by
  unfold EDB.flushV at e
  obtain ⟨⟨d1, x1, r1, w1⟩, h1, e⟩ := Res.bind_eq_ok e
  have H1 := H.flushX hE h1
  simp only at e
  split_ifs at e <;> (cases e; exact H1)

theorem Honest.recoverVar {d : Data} (H : Honest c S d) (v : Var) : Honest c S (recoverVar c d v).1 := by
  have hm : ∀ v, Honest c S (setMinRec c d v).1 := by
    intro v
    unfold setMinRec
    simp only
    split_ifs <;> first | exact H | exact (H.read _).1
  have hc : ∀ v l s, Honest c S (setVarCounters c d v l s).1 := by
    intro v l s
    unfold setVarCounters
    simp only
    split_ifs <;> first | exact H | exact hm _
  have hf : ∀ v p l m, Honest c S (finishVar c d v p l m).1 := by
    intro v p l m
    unfold finishVar
    simp only
    split_ifs <;> first | exact H | exact hc _ _ _
  unfold EDB.recoverVar
  simp only
  split
  · exact H
  · exact hf _ _ _ _

theorem Honest.reopenV (hE : EraseFine c) {D : Dev} (h : HonestDev c S D) (V : Dev) (rb : Page) (sm : Nat → Nat × Nat) (vrb : Page)
    (hv : Bool) : Honest c S (reopenV c D V rb sm vrb hv).1 := by
  have H := Honest.recover hE h rb sm
  unfold EDB.reopenV
  simp only
  split_ifs
  · exact H
  · exact H.recoverVar _
  · exact H

theorem KnownPast.gain {K : Nat} {d d' : Data} {its : Nat → Option Iter} {b : Nat → Option Range} (H : KnownPast c K d its b S) {k : Nat}
    {a : List Byte} {r : Int} (hk : k < K) (h : Honest c (S ++ Spec.gained (.put k a) (.code r)) d') :
    KnownPast c K d' its b (S ++ Spec.gained (.put k a) (.code r)) := by
  refine ⟨h, fun q hq => ?_, H.its⟩
  rcases List.mem_append.mp hq with hq | hq
  · exact H.keys q hq
  · change q ∈ (if r = 1 then [] else [(k, a)]) at hq
    split_ifs at hq
    · cases hq
    · rw [List.mem_singleton.mp hq]; exact hk

theorem Past.known {K : Nat} (hL : c.Layout) (hcap0 : 0 < c.maxRec) (hcap : c.maxRec ≤ 65535) (hE : EraseFine c)
    (hK : K ≤ 256 ^ c.keySize) (hcmp : CmpOk c.cmpKey K) {d : Data} {its : Nat → Option Iter} {b : Nat → Option Range}
    (h : Past c K d its b S) : KnownPast c K d its b S := by
  induction h with
  | new rb sm => exact ⟨Honest.fresh rb sm, fun _ h => (by cases h), fun _ _ h => (by cases h)⟩
  | op h hf e ih => exact (ih.step hL hcap0 hcap hE hK hcmp hf e).1
  | cut h k rb sm ih => exact ⟨Honest.recover hE (ih.honest.dev.cut hE k) rb sm, ih.keys, fun _ _ h => (by cases h)⟩
  | putVar h hk hl e ih => exact ih.gain hk (ih.honest.putVar hL hcap0 hcap hE hl (by omega) e)
  | putPlain h hk hl e ih =>
    obtain ⟨⟨d1, x1, r1, w1⟩, h1, e⟩ := Res.bind_eq_ok e
    cases e
    exact ih.gain hk (ih.honest.putX hL hcap0 hcap hE hl (by omega) h1)
  | flushVar h e ih => exact ⟨ih.honest.flushV hE e, ih.keys, ih.its⟩
  | getVar h bad e ih => exact ⟨ih.honest.withDev ((ih.honest.without bad).getVar e).1, ih.keys, ih.its⟩
  | nextVar h bad hi e ih =>
    obtain ⟨g1, -, h3, h4, h5, h6⟩ := (ih.honest.without bad).nextVar e
    obtain ⟨q, hq, hb, hk⟩ := ih.its _ _ hi
    refine ih.opened (ih.honest.withDev g1) (q := q) ⟨h3.trans hb.1, h4.trans hb.2.1, h5.trans hb.2.2.1, h6.trans hb.2.2.2⟩ hk (fun j => ?_)
    split_ifs with hj
    · rw [hj, hq]
    · rfl
  | cutVar h k V rb sm vrb hv ih => exact ⟨Honest.reopenV hE (ih.honest.dev.cut hE k) V rb sm vrb hv, ih.keys, fun _ _ h => (by cases h)⟩

end

end EDB
