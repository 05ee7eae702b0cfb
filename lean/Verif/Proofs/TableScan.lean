import Mathlib.Tactic.Linarith
import Mathlib.Tactic.Positivity
import Verif.Model.Plan
import Verif.Proofs.IdxScan
import Verif.Proofs.AggFuncs
import Verif.Proofs.Join

/-!
# The table scan operator yields the rows of its range
-/

namespace EDB

open Spec (Log Range)

/-! ## Bytes of integers -/

theorem leNat_intBytes (n : Nat) (z : Int) : (leNat (Spec.intBytes n z) : Int) = z % 256 ^ n := by
  induction n with
  | zero => simp [Spec.intBytes, leNat]
  | succ n ih =>
    have e : Spec.intBytes (n + 1) z = Spec.intBytes n z ++ [UInt8.ofNat (z / 256 ^ n % 256).toNat] := by
      simp [Spec.intBytes, List.range_succ]
    have hl : (Spec.intBytes n z).length = n := by simp [Spec.intBytes]
    have hb : ((UInt8.ofNat (z / 256 ^ n % 256).toNat).toNat : Int) = z / 256 ^ n % 256 := by
      have h1 : 0 ≤ z / 256 ^ n % 256 := Int.emod_nonneg _ (by omega)
      have h2 : z / 256 ^ n % 256 < 256 := Int.emod_lt_of_pos _ (by omega)
      rw [UInt8.toNat_ofNat']
      omega
    have hp : (0 : Int) < 256 ^ n := by positivity
    rw [e, leNat_append, hl]
    simp only [leNat, Nat.mul_zero, Nat.add_zero]
    push_cast
    rw [ih, hb]
    have h1 := Int.mul_ediv_add_emod z (256 ^ n)
    have h2 := Int.mul_ediv_add_emod (z / 256 ^ n) 256
    have h3 : z % 256 ^ n + 256 ^ n * (z / 256 ^ n % 256) = z - 256 ^ (n + 1) * (z / 256 ^ n / 256) := by
      rw [pow_succ]
      generalize z / 256 ^ n % 256 = u at *
      generalize z / 256 ^ n / 256 = v at *
      rw [← h2] at h1
      linarith [h1]
    have h0 : 0 ≤ z % 256 ^ n := Int.emod_nonneg _ (by omega)
    have h0' : z % 256 ^ n < 256 ^ n := Int.emod_lt_of_pos _ hp
    have h4 : 0 ≤ z / 256 ^ n % 256 := Int.emod_nonneg _ (by omega)
    have h5 : z / 256 ^ n % 256 ≤ 255 := by have := Int.emod_lt_of_pos (z / 256 ^ n) (show (0:Int) < 256 by omega); omega
    have h6 : 0 ≤ 256 ^ n * (z / 256 ^ n % 256) := Int.mul_nonneg hp.le h4
    have h7 : 256 ^ n * (z / 256 ^ n % 256) ≤ 256 ^ n * 255 := Int.mul_le_mul_of_nonneg_left h5 hp.le
    have h8 : z % 256 ^ n + 256 ^ n * (z / 256 ^ n % 256) < 256 ^ (n + 1) := by rw [pow_succ]; omega
    rw [← Int.emod_eq_of_lt (by omega) h8, h3, Int.sub_mul_emod_self_left]

theorem intBytes_length (n : Nat) (z : Int) : (Spec.intBytes n z).length = n := by simp [Spec.intBytes]

theorem eq_intBytes {n : Nat} {z : Int} {bs : List Byte} (hl : bs.length = n) (h : (leNat bs : Int) = z % 256 ^ n) :
    bs = Spec.intBytes n z := by
  apply leNat_inj
  · rw [hl, intBytes_length]
  · have := leNat_intBytes n z
    omega

theorem leBytes_intBytes (n v : Nat) : leBytes n v = Spec.intBytes n v := by
  refine eq_intBytes (leBytes_length _ _) ?_
  rw [leNat_leBytes]
  push_cast
  rfl

/-! ## `embedDBNext` with the caller's buffers -/

section
variable {c : Cfg} {lo K a : Nat} {L : Log}

theorem rd_slot (p : Page) (i : Nat) :
    rd p (slotOff c i) (c.keySize + c.dataSize) = Spec.row c.keySize (slotKey c p i, slotData c p i) := by
  have e : rd p (slotOff c i) (c.keySize + c.dataSize) = rd p (slotOff c i) c.keySize ++ slotData c p i := by
    unfold slotData rd
    rw [List.range_add, List.map_append, List.map_map]
    congr 1
    apply List.map_congr_left
    intro j _
    simp [Nat.add_assoc]
  rw [e]
  unfold Spec.row
  congr 1
  refine eq_intBytes (by simp [rd]) ?_
  have := slotKey_lt c p i
  unfold slotKey at *
  rw [Int.emod_eq_of_lt (by omega) (by exact_mod_cast this)]

theorem recLoop_copied (it : Iter) (p : Page) : ∀ (f i j : Nat) (out : Option (Option Rec)),
    recLoop c it p f i = (j, out) → i ≤ j ∧ (∀ r, out = some (some r) → i < j ∧ r = (slotKey c p (j - 1), slotData c p (j - 1))) ∧
      (it.range = ⟨none, none, none, none⟩ → (out = none → j = i) ∧ out ≠ some none) := by
  intro f
  induction f with
  | zero =>
    intro i j out h
    simp only [recLoop, Prod.mk.injEq] at h
    obtain ⟨rfl, rfl⟩ := h
    exact ⟨le_refl _, by simp, by simp⟩
  | succ f ih =>
    intro i j out h
    simp only [recLoop] at h
    by_cases h1 : it.minKey.any (fun b => c.cmpKey (slotKey c p i) b < 0) = true
    · rw [if_pos h1] at h
      obtain ⟨g1, g2, g3⟩ := ih _ _ _ h
      refine ⟨by omega, fun r hr => ⟨by have := (g2 r hr).1; omega, (g2 r hr).2⟩, ?_⟩
      intro hr; simp only [Iter.range, Range.mk.injEq] at hr; rw [hr.1] at h1; simp at h1
    rw [if_neg h1] at h
    by_cases h2 : it.maxKey.any (fun b => c.cmpKey (slotKey c p i) b > 0) = true
    · rw [if_pos h2] at h
      simp only [Prod.mk.injEq] at h
      obtain ⟨rfl, rfl⟩ := h
      refine ⟨by omega, by simp, ?_⟩
      intro hr; simp only [Iter.range, Range.mk.injEq] at hr; rw [hr.2.1] at h2; simp at h2
    rw [if_neg h2] at h
    by_cases h3 : it.minData.any (fun b => c.cmpData (slotData c p i) b < 0) = true
    · rw [if_pos h3] at h
      obtain ⟨g1, g2, g3⟩ := ih _ _ _ h
      refine ⟨by omega, fun r hr => ⟨by have := (g2 r hr).1; omega, (g2 r hr).2⟩, ?_⟩
      intro hr; simp only [Iter.range, Range.mk.injEq] at hr; rw [hr.2.2.1] at h3; simp at h3
    rw [if_neg h3] at h
    by_cases h4 : it.maxData.any (fun b => c.cmpData (slotData c p i) b > 0) = true
    · rw [if_pos h4] at h
      obtain ⟨g1, g2, g3⟩ := ih _ _ _ h
      refine ⟨by omega, fun r hr => ⟨by have := (g2 r hr).1; omega, (g2 r hr).2⟩, ?_⟩
      intro hr; simp only [Iter.range, Range.mk.injEq] at hr; rw [hr.2.2.2] at h4; simp at h4
    rw [if_neg h4] at h
    simp only [Prod.mk.injEq] at h
    obtain ⟨rfl, rfl⟩ := h
    refine ⟨by omega, ?_, by simp⟩
    intro r hr
    simp only [Option.some.injEq] at hr
    subst hr
    exact ⟨by omega, by simp⟩

/-- The buffers do not influence the scan; a returned record is in them; a scan without bounds touches them only then. -/
theorem nextBufLoop_ok : ∀ (f : Nat) (d : Data) (x : Idx) (it : Iter) (b : List Byte) (d' : Data) (x' : Idx) (it' : Iter)
    (out : Option Rec), nextLoop c f d x it = .ok (d', x', it', out) →
    ∃ b', nextBufLoop c f d x it b = .ok (d', x', it', out, b') ∧
      (∀ r, out = some r → b' = Spec.row c.keySize r) ∧
      (it.range = ⟨none, none, none, none⟩ → out = none → b' = b) := by
  intro f
  induction f with
  | zero => intro d x it b d' x' it' out h; cases h
  | succ f ih =>
    intro d x it b d' x' it' out h
    simp only [nextLoop] at h
    simp only [nextBufLoop]
    by_cases hp : it.page > d.next
    · rw [if_pos hp] at h ⊢
      cases h
      exact ⟨b, rfl, by simp, fun _ _ => rfl⟩
    rw [if_neg hp] at h ⊢
    obtain ⟨⟨x1, sk⟩, hsk, h⟩ := Res.bind_eq_ok h
    rw [hsk, Res.ok_bind]
    cases sk with
    | none =>
      cases h
      exact ⟨b, rfl, by simp, fun _ _ => rfl⟩
    | some sk =>
      cases sk with
      | true => exact ih _ _ _ _ _ _ _ _ h
      | false =>
        simp only at h ⊢
        obtain ⟨d1, ok, hrd⟩ : ∃ d1 ok, (if it.page = d.next then (d, true) else readPage d (it.page % c.N)) = (d1, ok) :=
          ⟨_, _, rfl⟩
        rw [hrd] at h ⊢
        simp only at h ⊢
        by_cases hok : ok = true
        · rw [if_pos hok] at h ⊢
          generalize (if it.page = d1.next then d1.wbuf else d1.rbuf) = p at h ⊢
          obtain ⟨j, o, hr⟩ : ∃ j o, recLoop c it p (pageCount p - it.slot) it.slot = (j, o) := ⟨_, _, rfl⟩
          obtain ⟨g1, g2, g3⟩ := recLoop_copied it p _ _ _ _ hr
          rw [hr] at h ⊢
          cases o with
          | none =>
            simp only at h ⊢
            obtain ⟨b', e1, e2, e3⟩ := ih _ _ _ (copied c p it.slot j b) _ _ _ _ h
            refine ⟨b', e1, e2, fun hq ho => ?_⟩
            rw [e3 hq ho]
            unfold copied
            rw [if_neg (by rw [(g3 hq).1 rfl]; omega)]
          | some o =>
            simp only at h ⊢
            cases h
            refine ⟨_, rfl, ?_, ?_⟩
            · intro r hr
              obtain ⟨k1, k2⟩ := g2 r (by rw [hr])
              unfold copied
              rw [if_pos k1, rd_slot, k2]
            · intro hq ho
              exact absurd (by rw [ho]) (g3 hq).2
        · rw [if_neg hok] at h ⊢
          cases h
          exact ⟨b, rfl, by simp, fun _ _ => rfl⟩

end

/-! ## One table -/

/-- What is known about a table: bounds on its keys and pages, the first page the spline knows, the first stored page
and the log it represents. -/
structure Known where
  lo : Nat
  K : Nat
  a : Nat
  P : Nat
  m : Nat
  L : Log

/-- The state represents the log, and the bitmap index (if any) is right. -/
structure Ready (c : Cfg) (k : Known) (d : Data) (x : Idx) : Prop where
  sim : Sim c k.lo k.K k.a d k.L
  pages : d.next ≤ k.P
  min : d.min = k.m
  idx : c.useBmap = false ∨ (c.IdxOk ∧ IdxInv c x k.L)

/-- Configuration and bounds of a table. -/
structure TabOk (c : Cfg) (k : Known) : Prop where
  ok : c.Ok k.K
  bounds : Bounds c k.lo k.K k.P

/-- An iterator in use. -/
structure IterGood (c : Cfg) (k : Known) (it : Iter) (l : List Rec) : Prop where
  keys : KeysOk k.K it.range
  qbm : QbmOk c it
  off : c.useBmap = false → it.qbm = none
  page : k.m ≤ it.page
  rows : Spec.scan c.cmpData it.range (rest k.L it.page it.slot) = l

section
variable {c : Cfg} {k : Known}

theorem Ready.next {d : Data} {x : Idx} {it : Iter} {l : List Rec} (H : TabOk c k) (R : Ready c k d x) (G : IterGood c k it l) :
    ∃ d' x' it' out, next c d x it = .ok (d', x', it', out) ∧ Ready c k d' x' ∧ NextOk c k.L it it' out := by
  have hp : d.min ≤ it.page := by rw [R.min]; exact G.page
  rcases R.idx with h | ⟨h1, h2⟩
  · obtain ⟨d', it', out, e1, e2, e3, e4⟩ := next_ok H.ok.cmp H.ok.N0 x R.sim G.keys (G.off h) hp
    exact ⟨d', x, it', out, e1, ⟨e3, by rw [e2.next]; exact R.pages, by rw [e2.min]; exact R.min, Or.inl h⟩, e4⟩
  · obtain ⟨d', x', it', out, e1, e2, e3, e4, e5⟩ := nextLoop_idx h1 H.ok.B0 H.ok.cmp H.ok.N0 (d.next + 1 - it.page + 1) d x it
      R.sim h2 G.keys G.qbm hp (by omega) (by omega)
    exact ⟨d', x', it', out, e1, ⟨e3, by rw [e2.next]; exact R.pages, by rw [e2.min]; exact R.min, Or.inr ⟨h1, e4⟩⟩, e5⟩

theorem Ready.init {d : Data} {x : Idx} (H : TabOk c k) (R : Ready c k d x) {q : Range} (hq : KeysOk k.K q) :
    ∃ it, initIter c d q.minKey q.maxKey q.minData q.maxData = .ok it ∧ it.range = q ∧
      IterGood c k it (Spec.scan c.cmpData q (k.L.live k.m)) := by
  obtain ⟨it, i1, i2, i3, i4, i5, -, i7⟩ := initIter_idx H.ok.cmp H.bounds H.ok.spline R.sim R.pages hq
  refine ⟨it, i1, i2, by rw [i2]; exact hq, i3, ?_, by rw [← R.min]; exact i5, by rw [i2, i4, i7, R.min]⟩
  intro h
  obtain ⟨it2, j1, -, j3, -⟩ := initIter_ok H.ok.cmp H.bounds H.ok.spline h R.sim R.pages hq
  rw [i1] at j1
  cases j1
  exact j3

theorem IterGood.step {it it' : Iter} {l : List Rec} {r : Rec} (G : IterGood c k it l) (N : NextOk c k.L it it' (some r)) :
    ∃ l', l = r :: l' ∧ IterGood c k it' l' := by
  obtain ⟨pre, p1, p2, p3⟩ := N.found r rfl
  refine ⟨_, ?_, by rw [N.range]; exact G.keys, G.qbm.of N.range N.qbm, by rw [N.qbm]; exact G.off,
    le_trans G.page N.page, rfl⟩
  rw [← G.rows, p1, N.range]
  unfold Spec.scan
  rw [List.filter_append, List.filter_cons_of_pos p2,
    List.filter_eq_nil_iff.mpr (fun y hy => by rw [p3 y hy]; simp), List.nil_append]

theorem IterGood.done {it it' : Iter} {l : List Rec} (G : IterGood c k it l) (N : NextOk c k.L it it' none) :
    l = [] ∧ IterGood c k it' [] := by
  obtain ⟨q1, q2⟩ := N.done rfl
  refine ⟨?_, by rw [N.range]; exact G.keys, G.qbm.of N.range N.qbm, by rw [N.qbm]; exact G.off,
    le_trans G.page N.page, ?_⟩
  · rw [← G.rows]
    exact List.filter_eq_nil_iff.mpr (fun y hy => by rw [q1 y hy]; simp)
  · rw [N.range]
    exact List.filter_eq_nil_iff.mpr (fun y hy => by rw [q1 y (q2 y hy)]; simp)

/-- Every stored record has data of the configured width. -/
theorem Ready.width {d : Data} {x : Idx} (R : Ready c k d x) : ∀ r ∈ k.L.live k.m, r.2.length = c.dataSize := by
  have hrec : ∀ p : Page, ∀ r ∈ recs c p, r.2.length = c.dataSize := by
    intro p r hr
    unfold recs at hr
    rw [List.mem_map] at hr
    obtain ⟨i, -, rfl⟩ := hr
    simp [slotData, rd]
  intro r hr
  unfold Log.live at hr
  rw [List.mem_append] at hr
  rcases hr with hr | hr
  · rw [List.mem_flatten] at hr
    obtain ⟨pg, h1, h2⟩ := hr
    obtain ⟨i, hi, rfl⟩ := List.mem_iff_getElem.mp h1
    rw [List.length_drop] at hi
    rw [List.getElem_drop] at h2
    obtain ⟨p, -, e, -⟩ := R.sim.stored (k.m + i) (by rw [R.min]; omega) (by omega)
    rw [← e] at h2
    exact hrec p r h2
  · rw [← R.sim.buf] at hr
    exact hrec _ r hr

end

/-! ## Table scans in a world of tables -/

section
variable {T : Type} [DecidableEq T] {cs : T → Cfg} {k : T → Known}

/-- Every table's state represents its log. -/
def WorldOk (cs : T → Cfg) (k : T → Known) (w : T → Data × Idx) : Prop := ∀ t, Ready (cs t) (k t) (w t).1 (w t).2

theorem WorldOk.update {w : T → Data × Idx} (h : WorldOk cs k w) {t : T} {d : Data} {x : Idx} (R : Ready (cs t) (k t) d x) :
    WorldOk cs k (Function.update w t (d, x)) := by
  intro u
  by_cases hu : u = t
  · subst hu; rw [Function.update_self]; exact R
  · rw [Function.update_of_ne hu]; exact h u

theorem tableScan_next (H : ∀ t, TabOk (cs t) (k t)) {t : T} {s : Schema} (hs : scanSchemaOk (cs t) s) (it0 : Iter)
    {it : Iter} {b : List Byte} {l : List Rec} (G : IterGood (cs t) (k t) it l) {w : T → Data × Idx} (hw : WorldOk cs k w) :
    ∃ w' it' b', (tableScan cs t s it0).next w (it, b) = .ok (w', (it', b'), !l.isEmpty) ∧ WorldOk cs k w' ∧
      it'.range = it.range ∧ IterGood (cs t) (k t) it' l.tail ∧ (∀ r ∈ l.head?, b' = Spec.row (cs t).keySize r) ∧
      (it.range = ⟨none, none, none, none⟩ → l = [] → b' = b) := by
  obtain ⟨d', x', it', out, e1, e2, e3⟩ := (hw t).next (H t) G
  obtain ⟨b', f1, f2, f3⟩ := nextBufLoop_ok _ _ _ _ b _ _ _ _ e1
  have e : (tableScan cs t s it0).next w (it, b) = .ok (Function.update w t (d', x'), (it', b'), out.isSome) := by
    refine (if_pos hs).trans ?_
    show nextBufLoop _ _ _ _ _ _ >>= _ = _
    rw [f1, Res.ok_bind]
    rfl
  refine ⟨_, it', b', ?_, hw.update e2, e3.range, ?_⟩
  · rw [e]
    cases out with
    | none => rw [(G.done e3).1]; rfl
    | some r => obtain ⟨l', rfl, -⟩ := G.step e3; rfl
  · cases out with
    | none =>
      obtain ⟨rfl, g⟩ := G.done e3
      exact ⟨g, by simp, fun hr _ => f3 hr rfl⟩
    | some r =>
      obtain ⟨l', rfl, g⟩ := G.step e3
      exact ⟨g, by intro r' hr; simp only [List.head?_cons, Option.mem_some_iff] at hr; subst hr; exact f2 _ rfl, by simp⟩

theorem tableScan_yields (H : ∀ t, TabOk (cs t) (k t)) {t : T} {s : Schema} (hs : scanSchemaOk (cs t) s) (it0 : Iter)
    {E : Iter × List Byte → Prop} {q : Range}
    (hE : ∀ it b, it.range = q → IterGood (cs t) (k t) it [] → E (it, b)) : ∀ (l : List Rec) (it : Iter) (b : List Byte),
    it.range = q → IterGood (cs t) (k t) it l →
    YieldsThen (WorldOk cs k) (tableScan cs t s it0) E (l.map (Spec.row (cs t).keySize)) (it, b) := by
  intro l
  induction l with
  | nil => intro it b hr G; exact hE it b hr G
  | cons r l ih =>
    intro it b hr G w hw
    obtain ⟨w', it', b', e1, e2, e3, e4, e5, -⟩ := tableScan_next H hs it0 (b := b) G hw
    exact ⟨w', (it', b'), e1, e2, e5 r rfl, ih it' b' (e3.trans hr) e4⟩

theorem tableScan_forever (H : ∀ t, TabOk (cs t) (k t)) {t : T} {s : Schema} (hs : scanSchemaOk (cs t) s)
    {it : Iter} {l : List Rec} (G : IterGood (cs t) (k t) it l) :
    YieldsForever (WorldOk cs k) (tableScan cs t s it) (l.map (Spec.row (cs t).keySize)) (tableScan cs t s it).start := by
  refine tableScan_yields H hs it (q := it.range) ?_ l it _ rfl G
  intro it' b _ G'
  refine ⟨fun st : Iter × List Byte => IterGood (cs t) (k t) st.1 [], G', ?_⟩
  rintro ⟨it1, b1⟩ h1 w hw
  obtain ⟨w', it2, b2, e1, e2, e3, e4, -⟩ := tableScan_next H hs it (b := b1) h1 hw
  exact ⟨w', (it2, b2), e1, e2, e4⟩

theorem tableScan_clean (H : ∀ t, TabOk (cs t) (k t)) {t : T} {s : Schema} (hs : scanSchemaOk (cs t) s)
    {it : Iter} {l : List Rec} (hq : it.range = ⟨none, none, none, none⟩) (G : IterGood (cs t) (k t) it l) :
    YieldsClean (WorldOk cs k) (tableScan cs t s it) (l.map (Spec.row (cs t).keySize)) (tableScan cs t s it).start := by
  refine tableScan_yields H hs it (q := it.range) ?_ l it _ rfl G
  intro it' b hr G'
  refine ⟨fun st : Iter × List Byte => st.1.range = ⟨none, none, none, none⟩ ∧ IterGood (cs t) (k t) st.1 [], ⟨hr.trans hq, G'⟩, ?_⟩
  rintro ⟨it1, b1⟩ ⟨h0, h1⟩ w hw
  obtain ⟨w', it2, b2, e1, e2, e3, e4, -, e6⟩ := tableScan_next H hs it (b := b1) h1 hw
  exact ⟨w', (it2, b2), e1, e2, ⟨e3.trans h0, e4⟩, e6 h0 rfl⟩

end

end EDB
