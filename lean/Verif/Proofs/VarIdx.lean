import Verif.Proofs.IdxScan
import Verif.Proofs.VarScan

/-! Helper lemmas: the bitmap index of a table with variable data. -/

namespace EDB

open Spec (Log VLog VOp VOut Range)

section
variable {c : Cfg} {lo lv K mn : Nat} {E : Mode} {d d' : Data} {x x' : Idx} {v v' : Var} {L : Log} {l : VLog} {g : Gh}

/-- The index describes every page of the log. -/
structure IdxKept (c : Cfg) (d : Data) (x : Idx) (L : Log) : Prop where
  idx : IdxInv c x L
  hdr : Covers c (hdrBm c d.wbuf) L.buf
  aligned : Aligned c x L.pages.length
  cache : x.buffered = none

theorem IdxKept.fresh (c : Cfg) (rb rb' : Page) (sm : Nat → Nat × Nat) : IdxKept c (Data.fresh c rb sm) (Idx.fresh c rb') Log.empty :=
  ⟨IdxInv.fresh c rb', Covers.nil _, fresh_aligned c rb rb' sm, rfl⟩

theorem IdxKept.put (hok : c.Ok K) (hx : c.IdxOk) (I : IdxKept c d x L) (hcount : pageCount d.wbuf = L.buf.length) {key : Nat} {data : List Byte}
    {loc : Nat} (hd : data.length = c.dataSize) {r : Int} {w : Bool} (e : putX c d x key data loc = .ok (d', x', r, w)) :
    (r = 0 ∧ IdxKept c d' x' (L.put c.maxRec (key, data))) ∨ (r = 1 ∧ IdxKept c d' x' L) := by
  have E := orderCheck_sameButCache (c := c) d key
  rw [putX_eq hok] at e
  cases ho : (orderCheck c d key).2 with
  | false =>
    rw [ho] at e
    simp only [Bool.false_eq_true, if_false, Res.ok.injEq, Prod.mk.injEq] at e
    obtain ⟨rfl, rfl, rfl, -⟩ := e
    exact Or.inr ⟨rfl, I.idx, by rw [E.wbuf]; exact I.hdr, I.aligned, I.cache⟩
  | true =>
    rw [ho, if_pos rfl] at e
    obtain ⟨x1, e1, e⟩ := Res.bind_eq_ok e
    simp only [Res.ok.injEq, Prod.mk.injEq] at e
    obtain ⟨rfl, rfl, rfl, -⟩ := e
    left
    refine ⟨rfl, ?_⟩
    have hw : (accepted c (orderCheck c d key).1 key data loc).wbuf =
        appendRec c (if pageCount d.wbuf ≥ c.maxRec then initPage c else d.wbuf) key data loc := by
      unfold accepted
      rw [E.wbuf]
      simp only
      split_ifs
      · rfl
      · rw [E.wbuf]
    by_cases hf : pageCount d.wbuf ≥ c.maxRec
    · rw [if_pos ⟨hf, hx.index⟩] at e1
      obtain ⟨x2, i1, i2, i3⟩ := I.idx.put hx hok.io hok.B0 (some d.next) (fun _ => by rw [I.cache]; simp) (fun _ => I.aligned)
        (hdrBm_length c d.wbuf) I.hdr [(key, data)]
      have hbf := idxPut_buffered hok.io e1
      rw [i1] at e1
      simp only [Res.ok.injEq] at e1
      subst e1
      have hp : L.put c.maxRec (key, data) = ⟨L.pages ++ [L.buf], [(key, data)]⟩ := by
        unfold Log.put; rw [if_pos (by omega)]
      rw [hp]
      refine ⟨i2, ?_, by simpa using i3 I.aligned, by rw [hbf]; exact I.cache⟩
      rw [hw, if_pos hf]
      exact (Covers.nil c).append hx key loc hd
    · rw [if_neg (fun h => hf h.1)] at e1
      simp only [Res.ok.injEq] at e1
      subst e1
      have hp : L.put c.maxRec (key, data) = ⟨L.pages, L.buf ++ [(key, data)]⟩ := by
        unfold Log.put; rw [if_neg (by omega)]
      rw [hp]
      refine ⟨I.idx.congr rfl, ?_, I.aligned, I.cache⟩
      rw [hw, if_neg hf]
      exact I.hdr.append hx key loc hd

theorem idxFlush_buffered {bm : List Byte} {b : Bool} (hio : ∀ n, c.ioOk n = true) (h : idxFlush c x bm = .ok (x', b)) :
    x'.buffered = x.buffered := by
  unfold idxFlush idxAppend at h
  obtain ⟨x1, h1, h⟩ := Res.bind_eq_ok h
  simp only at h1
  split_ifs at h1
  simp only [Res.ok.injEq] at h1
  rw [writeIdx_eq hio] at h
  simp only [Res.ok.injEq, Prod.mk.injEq] at h
  rw [← h.1, ← h1]
  simp only
  rfl

theorem IdxKept.flush (hok : c.Ok K) (hx : c.IdxOk) (I : IdxKept c d x L) (hcount : pageCount d.wbuf = L.buf.length)
    (hfull : pageCount x.wbuf + 1 = c.maxIdx) {r : Int} {w : Bool} (e : flushX c d x = .ok (d', x', r, w)) : IdxKept c d' x' L.flush := by
  rw [flushX_eq hok hx.index] at e
  by_cases h1 : pageCount d.wbuf < 1
  · rw [if_pos h1] at e
    simp only [Res.ok.injEq, Prod.mk.injEq] at e
    obtain ⟨rfl, rfl, -⟩ := e
    have hb : L.buf = [] := List.length_eq_zero_iff.mp (by omega)
    have e : L.flush = L := by unfold Log.flush; rw [if_pos hb]
    rw [e]
    exact I
  · rw [if_neg h1] at e
    obtain ⟨xo, e1, e⟩ := Res.bind_eq_ok e
    obtain ⟨x2, i1, i2, i3⟩ := I.idx.flush hx hok.io hok.B0 hfull I.aligned (by rw [I.cache]; simp) (hdrBm_length c d.wbuf) I.hdr []
    have hbf := idxFlush_buffered hok.io i1
    rw [i1] at e1
    simp only [Res.ok.injEq] at e1
    subst e1
    simp only [if_true, Res.ok.injEq, Prod.mk.injEq] at e
    obtain ⟨rfl, rfl, -⟩ := e
    have hb : L.buf ≠ [] := by intro hb; rw [hb] at hcount; simp at hcount; omega
    have hp : L.flush = ⟨L.pages ++ [L.buf], []⟩ := by unfold Log.flush; rw [if_neg hb]
    rw [hp]
    exact ⟨i2, Covers.nil _, by simpa using i3, by rw [hbf]; exact I.cache⟩

/-- `embedDBPutVar` does with the data and the index what `embedDBPut` does. -/
theorem putVar_putX {k : Nat} {a : List Byte} {b : Option (List Byte)} {r : Int} (hvd : c.useVdata = true)
    (e : putVar c d x v k a b = .ok (d', x', v', r)) : ∃ loc w, putX c d x k a loc = .ok (d', x', r, w) := by
  unfold putVar at e
  rw [if_pos hvd] at e
  cases b with
  | none =>
    simp only at e
    obtain ⟨⟨d1, x1, r1, w⟩, e1, e⟩ := Res.bind_eq_ok e
    simp only [Res.ok.injEq, Prod.mk.injEq] at e
    obtain ⟨rfl, rfl, -, rfl⟩ := e
    exact ⟨_, w, e1⟩
  | some bs =>
    simp only at e
    obtain ⟨⟨d1, x1, r1, w⟩, e1, e⟩ := Res.bind_eq_ok e
    simp only at e
    by_cases h : r1 ≠ 0
    · rw [if_pos h] at e
      simp only [Res.ok.injEq, Prod.mk.injEq] at e
      obtain ⟨rfl, rfl, -, rfl⟩ := e
      exact ⟨_, w, e1⟩
    · rw [if_neg h] at e
      obtain ⟨v2, e2, e⟩ := Res.bind_eq_ok e
      simp only [Res.ok.injEq, Prod.mk.injEq] at e
      obtain ⟨rfl, rfl, -, rfl⟩ := e
      have : r1 = 0 := by by_contra h0; exact h h0
      subst this
      exact ⟨_, w, e1⟩

theorem flushV_flushX {r : Int} (e : flushV c d x v = .ok (d', x', v', r)) : ∃ r' w, flushX c d x = .ok (d', x', r', w) := by
  unfold flushV at e
  obtain ⟨⟨d1, x1, r1, w⟩, e1, e⟩ := Res.bind_eq_ok e
  simp only at e
  by_cases h : r1 = 0 ∧ w = true
  · rw [if_pos h] at e
    simp only [Res.ok.injEq, Prod.mk.injEq] at e
    obtain ⟨rfl, rfl, -⟩ := e
    exact ⟨_, _, e1⟩
  · rw [if_neg h] at e
    simp only [Res.ok.injEq, Prod.mk.injEq] at e
    obtain ⟨rfl, rfl, -⟩ := e
    exact ⟨_, _, e1⟩

theorem getVar_wbuf {key : Nat} {r : Int} {out : Option (List Byte)} {st : Option Stream}
    (e : getVar c d v key = .ok (d', v', r, out, st)) : d'.wbuf = d.wbuf := by
  unfold getVar at e
  split_ifs at e with h
  · obtain ⟨⟨r1, o1⟩, -, e⟩ := Res.bind_eq_ok e
    simp only at e
    by_cases h1 : r1 ≠ -1
    · rw [if_pos h1] at e
      by_cases h2 : r1 < 0
      · rw [if_pos h2] at e; cases e
      · rw [if_neg h2] at e
        obtain ⟨⟨v1, s1, t1⟩, -, e⟩ := Res.bind_eq_ok e
        simp only [Res.ok.injEq, Prod.mk.injEq] at e
        rw [← e.1]
    · rw [if_neg h1] at e
      obtain ⟨⟨d1, r2, o2⟩, e1, e⟩ := Res.bind_eq_ok e
      have hs := get_same e1
      simp only at e
      by_cases h2 : r2 = 0
      · rw [if_pos h2] at e
        obtain ⟨i, -, e⟩ := Res.bind_eq_ok e
        cases i with
        | none => cases e
        | some i =>
          simp only at e
          by_cases h3 : toInt8 i < 0
          · rw [if_pos h3] at e; cases e
          · rw [if_neg h3] at e
            obtain ⟨⟨v1, s1, t1⟩, -, e⟩ := Res.bind_eq_ok e
            simp only [Res.ok.injEq, Prod.mk.injEq] at e
            rw [← e.1]; exact hs.wbuf
      · rw [if_neg h2] at e
        simp only [Res.ok.injEq, Prod.mk.injEq] at e
        rw [← e.1]; exact hs.wbuf
  · simp only [Res.ok.injEq, Prod.mk.injEq] at e
    rw [← e.1]

/-- Every operation of a table with variable data keeps the index. -/
theorem IdxKept.step (hok : c.Ok K) (hx : c.IdxOk) (hvd : c.useVdata = true) (I : IdxKept c d x l.log) (hcount : pageCount d.wbuf = l.log.buf.length)
    {op : VOp} {o : VOut} {l' : VLog} {g' : Gh} (hfull : op = .flush → pageCount x.wbuf + 1 = c.maxIdx)
    (hd : ∀ k a b, op = .put k a b → a.length = c.dataSize) (hobs : VObs c d l g' op o l')
    (e : stepV c d x v op = .ok (d', x', v', o)) : IdxKept c d' x' l'.log := by
  cases op with
  | put k a b =>
    simp only [stepV] at e
    obtain ⟨⟨d1, x1, v1, r⟩, e1, e⟩ := Res.bind_eq_ok e
    simp only [Res.ok.injEq, Prod.mk.injEq] at e
    obtain ⟨rfl, rfl, rfl, rfl⟩ := e
    obtain ⟨loc, w, e2⟩ := putVar_putX hvd e1
    rcases I.put hok hx hcount (hd k a b rfl) e2 with ⟨rfl, h⟩ | ⟨rfl, h⟩
    · rcases hobs with ⟨-, rfl⟩ | ⟨h1, -⟩
      · exact h
      · cases h1
    · rcases hobs with ⟨h1, -⟩ | ⟨-, rfl, -⟩
      · cases h1
      · exact h
  | flush =>
    simp only [stepV] at e
    obtain ⟨⟨d1, x1, v1, r⟩, e1, e⟩ := Res.bind_eq_ok e
    simp only [Res.ok.injEq, Prod.mk.injEq] at e
    obtain ⟨rfl, rfl, rfl, rfl⟩ := e
    obtain ⟨r', w, e2⟩ := flushV_flushX e1
    obtain ⟨-, rfl⟩ := hobs
    exact I.flush hok hx hcount (hfull rfl) e2
  | get k =>
    simp only [stepV] at e
    obtain ⟨⟨d1, r, out⟩, e1, e⟩ := Res.bind_eq_ok e
    simp only [Res.ok.injEq, Prod.mk.injEq] at e
    obtain ⟨rfl, rfl, rfl, rfl⟩ := e
    obtain ⟨rfl, -⟩ := hobs
    exact ⟨I.idx, by rw [(get_same e1).wbuf]; exact I.hdr, I.aligned, I.cache⟩
  | getVar k =>
    simp only [stepV] at e
    obtain ⟨⟨d1, v1, r, out, st⟩, e1, e⟩ := Res.bind_eq_ok e
    simp only at e
    obtain ⟨⟨v2, bs⟩, -, e⟩ := Res.bind_eq_ok e
    simp only [Res.ok.injEq, Prod.mk.injEq] at e
    obtain ⟨rfl, rfl, rfl, rfl⟩ := e
    obtain ⟨rfl, -⟩ := hobs
    exact ⟨I.idx, by rw [getVar_wbuf e1]; exact I.hdr, I.aligned, I.cache⟩

/-- Nothing was reclaimed: every row has its data. -/
theorem RowsOk.all {rs : List Spec.Rec} {var : Nat → Option (List Byte)} {out : List (Spec.Rec × Option (List Byte))} (h0 : g.vmin = 0)
    (h : RowsOk c g rs var out) : out = rs.map fun r => (r, var r.1) := by
  rw [← h.1, List.map_map]
  conv_lhs => rw [← List.map_id out]
  apply List.map_congr_left
  intro p hp
  have : p.2 = var p.1.1 := by
    rcases h.2 p hp with ⟨h1, h2⟩ | ⟨e, -, -, ⟨h1, -⟩ | ⟨-, h1⟩⟩
    · rw [h1, h2]
    · rw [h0] at h1; exact absurd h1 (Nat.not_lt_zero _)
    · exact h1
  simp only [Function.comp, id]
  rw [← this]

/-- A complete scan with variable data of a table with a bitmap index. -/
theorem scanVar_idx (hok : c.Ok K) (hv : c.VFile) (hx : c.IdxOk) {P : Nat} (hB : Bounds c lo K P)
    (T : VTableM c lo lv K mn E d v l g) (I : IdxInv c x l.log) (R : ScanReady c E d v) (hP : d.next ≤ P) {q : Range} (hq : KeysOk K q) :
    ∃ d' x' v' g' out, scanVar c d x v q = .ok (d', x', v', out) ∧ VTableM c lo lv K mn E d' v' l g' ∧ g'.es = g.es ∧
      RowsOk c g' (Spec.scan c.cmpData q (l.log.live d.min)) l.var out := by
  obtain ⟨it, i1, i2, i3, i4, i5, i6, i7⟩ := initIter_idx hok.cmp hB hok.spline T.tab.sim hP hq
  have hlen := rest_length T.tab.cap it.page
  rw [← T.tab.sim.next] at hlen
  obtain ⟨d', x', v', g', out, o1, -, o2, o4, -, o3⟩ := collectV_with hok hv hB.key (I := fun x => IdxInv c x l.log) (B := QbmOk c)
    (fun it it' h h1 h2 => h.of h1 h2)
    (fun d x it S hI hq hb hmin => nextLoop_idx hx hok.B0 hok.cmp hok.N0 (d.next + 1 - it.page + 1) d x it S hI hq hb hmin (by omega) (by omega))
    ((d.next + 1) * c.maxRec + 1) d x v g it T I R (by rw [i2]; exact hq) i3 i5 (by rw [i4]; omega)
  refine ⟨d', x', v', g', out, ?_, o2, o4, ?_⟩
  · unfold scanVar
    rw [i1, Res.ok_bind, o1]
  · rw [i2, i4, i7] at o3
    exact o3

end

end EDB
