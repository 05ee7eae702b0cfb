import Verif.Proofs.VarPhase

/-! Helper lemmas: iterating over records with variable data. -/

namespace EDB

open Spec (Log VLog VOp VOut Range)

section
variable {c : Cfg} {lo lv K a mn : Nat} {E : Mode} {d : Data} {v : Var} {L : Log} {l : VLog} {g : Gh}

theorem recLoop_where (it : Iter) (p : Page) : ∀ (f i j : Nat) (r : Rec), recLoop c it p f i = (j, some (some r)) →
    i < j ∧ j ≤ i + f ∧ slotKey c p (j - 1) = r.1 := by
  intro f
  induction f with
  | zero => intro i j r h; simp [recLoop] at h
  | succ f ih =>
    intro i j r h
    have hrec : recLoop c it p f (i + 1) = (j, some (some r)) → i < j ∧ j ≤ i + (f + 1) ∧ slotKey c p (j - 1) = r.1 := by
      intro h
      obtain ⟨h1, h2, h3⟩ := ih _ _ _ h
      exact ⟨by omega, by omega, h3⟩
    unfold recLoop at h
    simp only at h
    split_ifs at h
    · exact hrec h
    · simp at h
    · exact hrec h
    · exact hrec h
    · simp only [Prod.mk.injEq, Option.some.injEq] at h
      obtain ⟨rfl, rfl⟩ := h
      exact ⟨by omega, by omega, rfl⟩

/-- Where the record is that the iterator returned. -/
def Returned (c : Cfg) (d d' : Data) (it' : Iter) (r : Rec) : Prop :=
  0 < it'.slot ∧
    ((d.min ≤ it'.page ∧ it'.page < d.next ∧ d'.dev.file (it'.page % c.N) = some d'.rbuf ∧ it'.slot ≤ pageCount d'.rbuf ∧
        slotKey c d'.rbuf (it'.slot - 1) = r.1) ∨
     (it'.page = d.next ∧ it'.slot ≤ pageCount d.wbuf ∧ slotKey c d.wbuf (it'.slot - 1) = r.1))

theorem nextLoop_where (hN : 0 < c.N) : ∀ (f : Nat) (d : Data) (x : Idx) (it : Iter),
    Sim c lo K a d L → d.min ≤ it.page → ∀ d' x' it' r, nextLoop c f d x it = .ok (d', x', it', some r) →
    Returned c d d' it' r := by
  intro f
  induction f with
  | zero => intro d x it _ _ d' x' it' r h; simp [nextLoop] at h
  | succ f ih =>
    intro d x it S hmin d' x' it' r h
    unfold nextLoop at h
    by_cases hgt : it.page > d.next
    · rw [if_pos hgt] at h; simp at h
    rw [if_neg hgt] at h
    obtain ⟨⟨x1, sk⟩, -, h⟩ := Res.bind_eq_ok h
    simp only at h
    cases sk with
    | none => simp only [Res.ok.injEq, Prod.mk.injEq, reduceCtorEq, and_false] at h
    | some sk =>
    cases sk with
    | true => exact ih d x1 { it with page := it.page + 1 } S (by simp only; omega) d' x' it' r h
    | false =>
    simp only at h
    have hpage : ∃ d1, (if it.page = d.next then (d, true) else readPage d (it.page % c.N)) = (d1, true) ∧
        SameButCache d d1 ∧ Sim c lo K a d1 L ∧ (it.page ≠ d.next → d1.dev.file (it.page % c.N) = some d1.rbuf) := by
      by_cases he : it.page = d.next
      · rw [if_pos he]
        exact ⟨d, rfl, SameButCache.refl d, S, fun h => absurd he h⟩
      · rw [if_neg he]
        obtain ⟨d1, r1, r2, r3, r4, -⟩ := S.readPage hN (l := it.page) hmin (by omega)
        exact ⟨d1, r1, r2, r3, fun _ => r3.cache _ r4 it.page (by rw [r2.min]; exact hmin) (by rw [r2.next]; omega) rfl⟩
    obtain ⟨d1, p1, p2, p3, p4⟩ := hpage
    rw [p1] at h
    simp only [if_true] at h
    generalize hrl : recLoop c it (if it.page = d1.next then d1.wbuf else d1.rbuf)
      (pageCount (if it.page = d1.next then d1.wbuf else d1.rbuf) - it.slot) it.slot = res at h
    obtain ⟨j, out⟩ := res
    cases out with
    | none =>
      simp only at h
      have := ih d1 x1 { it with page := it.page + 1, slot := 0 } p3 (by rw [p2.min]; simp only; omega) d' x' it' r h
      unfold Returned at this ⊢
      rw [p2.min, p2.next, p2.wbuf] at this
      exact this
    | some o =>
      simp only [Res.ok.injEq, Prod.mk.injEq] at h
      obtain ⟨rfl, rfl, rfl, rfl⟩ := h
      obtain ⟨w1, w2, w3⟩ := recLoop_where it _ _ _ _ _ hrl
      refine ⟨by simp only; omega, ?_⟩
      by_cases he : it.page = d.next
      · right
        rw [if_pos (by rw [p2.next]; exact he), p2.wbuf] at w2 w3
        exact ⟨he, by simp only; omega, w3⟩
      · left
        rw [if_neg (by rw [p2.next]; exact he)] at w2 w3
        exact ⟨hmin, by simp only; omega, p4 he, by simp only; omega, w3⟩

/-- What the variable data file needs while iterating: no write, or one page for a table whose records are all in the
write buffer. -/
structure ScanReady (c : Cfg) (E : Mode) (d : Data) (v : Var) : Prop where
  sync : VSync v
  place : pageCount d.wbuf = 0 ∨ (d.next = 0 ∧ (v.loc % c.pageSize = c.vhdr ∨ (VSync (flushVar c v).1 ∧ RoomFor c E (v.next + 1))))

theorem VTableM.nextVar (hok : c.Ok K) (hv : c.VFile) (hK : K ≤ 256 ^ c.keySize) (T : VTableM c lo lv K mn E d v l g) (R : ScanReady c E d v)
    {x x1 : Idx} {it it1 : Iter} {d1 : Data} {out : Option Rec} (hmin : d.min ≤ it.page) (e1 : next c d x it = .ok (d1, x1, it1, out))
    (e2 : SameButCache d d1) (e3 : Sim c lo K mn d1 l.log) (e4 : NextOk c l.log it it1 out) :
    ∃ d' v' g' it' out, nextVar c d x v it = .ok (d', x1, v', it', out) ∧ VTableM c lo lv K mn E d' v' l g' ∧ ScanReady c E d' v' ∧
      d'.next = d.next ∧ d'.min = d.min ∧ g'.es = g.es ∧ (pageCount d.wbuf = 0 ∨ v.loc % c.pageSize = c.vhdr → v'.next = v.next) ∧
      d'.wbuf = d.wbuf ∧ NextOk c l.log it it' (out.map Prod.fst) ∧
      ∀ r st, out = some (r, st) → (pageCount d'.wbuf = 0 ∨ (d'.next = 0 ∧ v'.loc % c.pageSize = c.vhdr)) ∧
        ∃ s, StAns c g' v' r.1 s st := by
  have T1 := T.congr e2 e3
  simp only [EDB.nextVar, hv.vdata, if_true]
  rw [e1]
  simp only [Res.ok_bind]
  have R1 : ScanReady c E d1 v := ⟨R.sync, by rw [e2.wbuf, e2.next]; exact R.place⟩
  cases out with
  | none => exact ⟨d1, v, g, it1, none, rfl, T1, R1, e2.next, e2.min, rfl, fun _ => rfl, e2.wbuf, e4, fun r st h => by cases h⟩
  | some r =>
    simp only
    obtain ⟨w0, w⟩ := nextLoop_where hok.N0 _ d x it T.tab.sim hmin _ _ _ _ e1
    by_cases hbuf : pageCount d.wbuf = 0
    · -- everything is stored
      rcases w with ⟨w1, w2, w3, w4, w5⟩ | ⟨w1, w2, w3⟩
      · rw [e2.wbuf, if_neg (by omega), if_neg (by omega)]
        obtain ⟨q1, q2⟩ := T1.locs it1.page (by rw [e2.min]; exact w1) (by rw [e2.next]; exact w2) d1.rbuf w3
        have hi : it1.slot - 1 < pageCount d1.rbuf := by omega
        obtain ⟨v', s, st, p1, p2, p3, p4, p5⟩ := setupPart (d := d1) (i := it1.slot - 1) (key := r.1) hv hok.cmp T.inv T.ents R.sync (by
          rcases q1 _ hi with ⟨h1, h2⟩ | ⟨e, f1, f2, f3⟩
          · left; rw [w5] at h2; exact ⟨h1, h2⟩
          · right; rw [w5] at f2
            exact ⟨e, f1, f2, f3, q2 _ hi e f1 (by rw [w5]; exact f2)⟩)
        rw [p1]
        simp only [Res.ok_bind]
        rw [if_pos p4]
        exact ⟨d1, v', g, it1, _, rfl, T1.recache p2 p3, ⟨p3, Or.inl (by rw [e2.wbuf]; exact hbuf)⟩, e2.next, e2.min, rfl,
          fun _ => p2.next, e2.wbuf, e4, fun r' st' h => by cases h; exact ⟨Or.inl (by rw [e2.wbuf]; exact hbuf), _, p5⟩⟩
      · omega
    · -- everything is in the write buffer
      obtain ⟨n0, hpl⟩ := R.place.resolve_left hbuf
      have hroom : v.loc % c.pageSize ≠ c.vhdr → RoomFor c E (v.next + 1) := fun h => (hpl.resolve_left h).2
      have hsync : VSync (flushVar c v).1 := by
        rcases hpl with h | h
        · unfold flushVar; rw [if_pos h]; exact R.sync
        · exact h.1
      rcases w with ⟨w1, w2, -⟩ | ⟨w1, w2, w3⟩
      · omega
      · have hcond : it1.page = 0 ∧ pageCount d1.wbuf > 0 := ⟨by omega, by rw [e2.wbuf]; omega⟩
        rw [if_pos hcond, if_pos hcond]
        obtain ⟨g', z, v1, f1, f2, f3, f4, f5, f6, f7, f8, f9, f10⟩ := T.inv.flush hv hK T.opn hroom
        rw [f1] at hsync
        simp only at hsync
        have hes := T.ents.append f3 f4
        have hi : it1.slot - 1 < pageCount d.wbuf := by omega
        have hb1 : d1.buffered = none := by
          cases hb1 : d1.buffered with
          | none => rfl
          | some ph =>
            have := (e3.cacheN ph hb1).2
            rw [e2.next] at this
            omega
        have T2 : VTableM c lo lv K mn E d1 v1 l g' := by
          refine ⟨T1.tab, f2, f10, hes, by rw [f4]; exact T.known, by rw [f4]; exact T.vars, by rw [f4]; exact T.novar, ?_,
            by rw [f4]; exact T1.lbuf⟩
          intro n h1 h2
          rw [e2.next] at h2
          omega
        have hd1 : { d1 with rbuf := d1.wbuf } = { d1 with rbuf := d.wbuf } := by rw [e2.wbuf]
        obtain ⟨v', s, st, p1, p2, p3, p4, p5⟩ := setupPart (d := { d1 with rbuf := d.wbuf }) (i := it1.slot - 1) (key := r.1) hv hok.cmp f2 hes hsync (by
          rcases T.lbuf _ hi with ⟨h1, h2⟩ | ⟨e, e1, e2, e3⟩
          · left; rw [w3] at h2; exact ⟨h1, by rw [f4]; exact h2⟩
          · right; rw [w3] at e2; rw [← f4] at e1
            exact ⟨e, e1, e2, e3, by rw [f9]; exact (hes.ok e e1).fin_le⟩)
        rw [f1, hd1]
        simp only
        rw [p1]
        simp only [Res.ok_bind]
        rw [if_pos p4]
        have hloc : v'.loc % c.pageSize = c.vhdr := by
          obtain ⟨o1, -, -⟩ := (T2.recache p2 p3).inv.sim.off hv (T2.recache p2 p3).opn
          rw [o1, p2.next, f9]; omega
        refine ⟨_, v', g', it1, _, rfl, ?_, ⟨p3, Or.inr ⟨by simp only; rw [e2.next]; exact n0, Or.inl hloc⟩⟩, e2.next, e2.min, f4,
          ?_, e2.wbuf, e4, fun r' st' h => by cases h; exact ⟨Or.inr ⟨by simp only; rw [e2.next]; exact n0, hloc⟩, _, p5⟩⟩
        rotate_left
        · rintro (h | h)
          · exact absurd h hbuf
          · have : (flushVar c v).1 = v := by unfold flushVar; rw [if_pos h]
            rw [p2.next, ← this, f1]
        · refine (T2.recache p2 p3).congr (d' := { d1 with rbuf := d.wbuf }) ⟨rfl, rfl, rfl, rfl, rfl, rfl, rfl, rfl⟩ ?_
          exact e3.congr_cache ⟨rfl, rfl, rfl, rfl, rfl, rfl, rfl, rfl⟩ (fun ph h => by simp only at h; rw [hb1] at h; cases h)
            (fun ph h => by simp only at h; rw [hb1] at h; cases h)

/-- Rows with their variable data, which is gone if it starts before the oldest page kept. -/
def RowsOk (c : Cfg) (g : Gh) (rs : List Rec) (var : Nat → Option (List Byte)) (out : List (Rec × Option (List Byte))) : Prop :=
  out.map Prod.fst = rs ∧ ∀ p ∈ out, (p.2 = none ∧ var p.1.1 = none) ∨
    ∃ e ∈ g.es, e.key = p.1.1 ∧ ((e.a / c.vcap < g.vmin ∧ p.2 = none) ∨ (g.vmin ≤ e.a / c.vcap ∧ p.2 = var p.1.1))

theorem mem_rest_live {pg slot m : Nat} {r : Rec} (hm : m ≤ pg) (hl : m ≤ L.pages.length) (h : r ∈ rest L pg slot) : r ∈ L.live m := by
  rw [← rest_all L m hl, rest_zero]
  have h1 : r ∈ ((L.pages ++ [L.buf]).drop pg).flatten := by
    unfold rest at h
    cases hd : (L.pages ++ [L.buf]).drop pg with
    | nil => rw [hd] at h; cases h
    | cons p t =>
      rw [hd] at h
      simp only at h
      rw [List.flatten_cons]
      rcases List.mem_append.mp h with h | h
      · exact List.mem_append_left _ (List.mem_of_mem_drop h)
      · exact List.mem_append_right _ h
  obtain ⟨q, q1, q2⟩ := List.mem_flatten.mp h1
  refine List.mem_flatten.mpr ⟨q, ?_, q2⟩
  have e : (L.pages ++ [L.buf]).drop pg = ((L.pages ++ [L.buf]).drop m).drop (pg - m) := by
    rw [List.drop_drop]
    congr 1
    omega
  rw [e] at q1
  exact List.mem_of_mem_drop q1

/-- `I`: what is known about the index; `B`: about the query bitmap. -/
theorem collectV_with (hok : c.Ok K) (hv : c.VFile) (hK : K ≤ 256 ^ c.keySize) {I : Idx → Prop} {B : Iter → Prop}
    (hB : ∀ it it', B it → it'.range = it.range → it'.qbm = it.qbm → B it')
    (hnext : ∀ d x it, Sim c lo K mn d l.log → I x → KeysOk K it.range → B it → d.min ≤ it.page →
      ∃ d' x' it' out, next c d x it = .ok (d', x', it', out) ∧ SameButCache d d' ∧ Sim c lo K mn d' l.log ∧ I x' ∧ NextOk c l.log it it' out) :
    ∀ (f : Nat) (d : Data) (x : Idx) (v : Var) (g : Gh) (it : Iter),
    VTableM c lo lv K mn E d v l g → I x → ScanReady c E d v → KeysOk K it.range → B it → d.min ≤ it.page →
    (rest l.log it.page it.slot).length < f →
    ∃ d' x' v' g' out, collectV c f d x v it = .ok (d', x', v', out) ∧ I x' ∧ VTableM c lo lv K mn E d' v' l g' ∧ g'.es = g.es ∧
      (pageCount d.wbuf = 0 ∨ v.loc % c.pageSize = c.vhdr → v'.next = v.next) ∧ RowsOk c g' (Spec.scan c.cmpData it.range (rest l.log it.page it.slot)) l.var out := by
  intro f
  induction f with
  | zero => intro d x v g it _ _ _ _ _ _ h; omega
  | succ f ih =>
    intro d x v g it T hI R hq hb hmin hlen
    obtain ⟨d0, x1, it0, out0, s1, s2, s3, hI1, s4⟩ := hnext d x it T.tab.sim hI hq hb hmin
    obtain ⟨d1, v1, g1, it1, out, e1, T1, R1, n1, n2, hes, hnx, hwb, e4, hst⟩ := T.nextVar hok hv hK R hmin s1 s2 s3 s4
    unfold collectV
    rw [e1, Res.ok_bind]
    cases out with
    | none =>
      refine ⟨d1, x1, v1, g1, [], rfl, hI1, T1, hes, hnx, ?_, by simp⟩
      unfold Spec.scan
      rw [List.filter_eq_nil_iff.mpr]
      · rfl
      · intro y hy
        rw [(e4.done rfl).1 y hy]
        simp
    | some rst =>
      obtain ⟨r, st⟩ := rst
      obtain ⟨pre, p1, p2, p3⟩ := e4.found r rfl
      have hl : (rest l.log it1.page it1.slot).length < f := by
        rw [p1, List.length_append, List.length_cons] at hlen; omega
      obtain ⟨hpl, s, hans⟩ := hst r st rfl
      obtain ⟨v2, bs, r1, r2, r3, r4⟩ := hans.readAll hv T1.inv T1.ents R1.sync
      have R2 : ScanReady c E d1 v2 := by
        refine ⟨r3, ?_⟩
        rcases hpl with h | ⟨h1, h2⟩
        · exact Or.inl h
        · exact Or.inr ⟨h1, Or.inl (by rw [r2]; exact h2)⟩
      obtain ⟨d3, x3, v3, g3, out, o1, hI3, o2, q1, q2, o3, o4⟩ := ih d1 x1 v2 g1 it1 (T1.recache r2 r3) hI1 R2 (by rw [e4.range]; exact hq)
        (hB _ _ hb e4.range e4.qbm) (by rw [n2]; have := e4.page; omega) hl
      have hpre : pre.filter (it.range.has c.cmpData) = [] :=
        List.filter_eq_nil_iff.mpr (by intro y hy; rw [p3 y hy]; simp)
      simp only
      rw [r1, Res.ok_bind]
      simp only
      rw [o1, Res.ok_bind]
      have hn3 : v3.next = v1.next := by
        rw [← r2.next]
        refine q2 ?_
        rcases hpl with h | ⟨-, h⟩
        · exact Or.inl h
        · exact Or.inr (by rw [r2]; exact h)
      have hvm : g3.vmin = g1.vmin := by rw [o2.inv.vmin_max hv, T1.inv.vmin_max hv, hn3]
      refine ⟨d3, x3, v3, g3, _, rfl, hI3, o2, by rw [q1, hes], fun h => by rw [hn3, hnx h], ?_, ?_⟩
      · rw [p1, List.map_cons, o3, e4.range]
        unfold Spec.scan
        rw [List.filter_append, hpre, List.nil_append, List.filter_cons_of_pos p2]
      · intro p hp
        rcases List.mem_cons.mp hp with rfl | hp
        · rw [hvm, q1]
          rcases r4 with ⟨-, rfl, hno⟩ | ⟨e, h1, h2, ⟨h3, -, rfl⟩ | ⟨h3, -, rfl⟩⟩
          · left
            have hmn : mn ≤ l.log.pages.length := by have := T.tab.sim.amin; have := T.tab.sim.minle; have := T.tab.sim.next; omega
            exact ⟨rfl, T1.novar r (mem_rest_live (le_trans T.tab.sim.amin hmin) hmn (by rw [p1]; simp)) hno⟩
          · exact Or.inr ⟨e, h1, h2, Or.inl ⟨h3, rfl⟩⟩
          · have := T1.vars e h1
            rw [h2] at this
            exact Or.inr ⟨e, h1, h2, Or.inr ⟨h3, this.symm⟩⟩
        · exact o4 p hp

theorem collectV_ok (hok : c.Ok K) (hv : c.VFile) (hK : K ≤ 256 ^ c.keySize) (x : Idx) (f : Nat) (d : Data) (v : Var) (g : Gh) (it : Iter)
    (T : VTableM c lo lv K mn E d v l g) (R : ScanReady c E d v) (hq : KeysOk K it.range) (hb : it.qbm = none) (hmin : d.min ≤ it.page)
    (hl : (rest l.log it.page it.slot).length < f) :
    ∃ d' v' g' out, collectV c f d x v it = .ok (d', x, v', out) ∧ VTableM c lo lv K mn E d' v' l g' ∧ g'.es = g.es ∧
      (pageCount d.wbuf = 0 ∨ v.loc % c.pageSize = c.vhdr → v'.next = v.next) ∧ RowsOk c g' (Spec.scan c.cmpData it.range (rest l.log it.page it.slot)) l.var out := by
  obtain ⟨d', x', v', g', out, h1, rfl, h2⟩ := collectV_with hok hv hK (I := fun y => y = x) (B := fun it => it.qbm = none)
    (fun it it' h1 _ h2 => by rw [h2]; exact h1)
    (fun d y it S hy hq hb hmin => by
      subst hy
      obtain ⟨d1, it1, out, e1, e2, e3, e4⟩ := next_ok hok.cmp hok.N0 y S hq hb hmin
      exact ⟨d1, y, it1, out, e1, e2, e3, rfl, e4⟩) f d x v g it T rfl R hq hb hmin hl
  exact ⟨d', v', g', out, h1, h2⟩

/-- A complete scan with variable data. -/
theorem scanVar_ok (hok : c.Ok K) (hv : c.VFile) {P : Nat} (hB : Bounds c lo K P)
    (T : VTableM c lo lv K mn E d v l g) (R : ScanReady c E d v) (hP : d.next ≤ P) (x : Idx) {q : Range} (hq : KeysOk K q)
    (hbm : c.useBmap = false ∨ (q.minData = none ∧ q.maxData = none)) :
    ∃ d' v' g' out, scanVar c d x v q = .ok (d', x, v', out) ∧ VTableM c lo lv K mn E d' v' l g' ∧ g'.es = g.es ∧
      RowsOk c g' (Spec.scan c.cmpData q (l.log.live d.min)) l.var out := by
  obtain ⟨it, i1, i2, i3, i4, i5, i6, i7⟩ := initIter_keys hok.cmp hB hok.spline T.tab.sim hP hq
    (by rcases hbm with h | ⟨h1, h2⟩ <;> simp [*])
  have hlen := rest_length T.tab.cap it.page
  rw [← T.tab.sim.next] at hlen
  obtain ⟨d', v', g', out, o1, o2, o4, -, o3⟩ := collectV_ok hok hv hB.key x ((d.next + 1) * c.maxRec + 1) d v g it T R (by rw [i2]; exact hq) i3 i5
    (by rw [i4]; omega)
  refine ⟨d', v', g', out, ?_, o2, o4, ?_⟩
  · unfold scanVar
    rw [i1, Res.ok_bind, o1]
  · rw [i2, i4, i7] at o3
    exact o3

end

end EDB
