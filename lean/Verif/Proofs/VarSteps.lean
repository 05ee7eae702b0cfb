import Verif.Proofs.VarTable

/-! Helper lemmas: client operations on a table with variable data. -/

namespace EDB

open Spec (Log VLog VOp VOut)

section
variable {c : Cfg} {lo lv K a mn : Nat} {E : Mode} {d : Data} {v : Var} {L : Log} {l : VLog} {g : Gh}

theorem mem_all_of_live {L : Log} {m : Nat} {r : Rec} (h : r ∈ L.live m) : r ∈ L.all := by
  rcases mem_live.mp h with ⟨n, hn, -, h⟩ | h
  · exact mem_all_page hn h
  · exact mem_all_buf h

theorem live_le {L : Log} {m n : Nat} (h : m ≤ n) {r : Rec} (hr : r ∈ L.live n) : r ∈ L.live m := by
  rcases mem_live.mp hr with ⟨j, hj, h1, h2⟩ | h2
  · exact mem_live.mpr (Or.inl ⟨j, hj, by omega, h2⟩)
  · exact mem_live.mpr (Or.inr h2)

theorem put_live {L : Log} {cap m : Nat} {r s : Rec} (hm : m ≤ L.pages.length) (hr : r ∈ (L.put cap s).live m) : r ∈ L.live m ∨ r = s := by
  unfold Log.put at hr
  split_ifs at hr
  · unfold Log.live at hr ⊢
    simp only [List.drop_append_of_le_length hm, List.flatten_append, List.mem_append, List.flatten_cons, List.flatten_nil,
      List.append_nil, List.mem_singleton] at hr
    simp only [List.mem_append]
    tauto
  · unfold Log.live at hr ⊢
    simp only [List.mem_append, List.mem_singleton] at hr ⊢
    tauto

theorem flush_live {L : Log} {m : Nat} {r : Rec} (hm : m ≤ L.pages.length) (hr : r ∈ L.flush.live m) : r ∈ L.live m := by
  unfold Log.flush at hr
  split_ifs at hr
  · exact hr
  · unfold Log.live at hr ⊢
    simp only [List.drop_append_of_le_length hm, List.flatten_append, List.flatten_cons, List.flatten_nil, List.append_nil] at hr
    exact hr

/-- The index file cannot stop an insertion: a bitmap fits into the page, if need be a new one. -/
theorem idxPut_ok (hcap : c.useIndex = true → 0 < c.maxIdx) (hix : c.useIndex = true) (x : Idx) (pn : Option Nat) (bm : List Byte) :
    ∃ x', idxPut c x pn bm = .ok x' := by
  have hfit : ∀ n, n < c.maxIdx → 16 + c.bitmapSize * (n + 1) ≤ c.pageSize := by
    intro n hn
    have h1 : c.bitmapSize * (n + 1) ≤ c.bitmapSize * c.maxIdx := Nat.mul_le_mul_left _ hn
    have h2 : c.bitmapSize * c.maxIdx ≤ c.pageSize - 16 := Nat.mul_div_le _ _
    have h3 : 0 < c.pageSize - 16 := by
      by_contra h0
      have : c.maxIdx = 0 := by unfold Cfg.maxIdx; rw [Nat.eq_zero_of_not_pos h0, Nat.zero_div]
      omega
    omega
  have hnew : ∀ n, pageCount (wr (initPage c) 8 (leBytes 4 n)) = 0 := by
    intro n
    rw [← pageCount_initPage c]
    unfold pageCount
    rw [rd_wr_disj _ _ _ _ _ (by omega)]
  unfold idxPut idxAppend
  by_cases hf : pageCount x.wbuf ≥ c.maxIdx
  · rw [if_pos hf]
    simp only [hnew]
    rw [if_neg (by have := hfit 0 (hcap hix); omega)]
    exact ⟨_, rfl⟩
  · rw [if_neg hf, if_neg (by have := hfit (pageCount x.wbuf) (by omega); omega)]
    exact ⟨_, rfl⟩

/-- There is room for another bitmap in the index page under construction. -/
def IdxRoom (c : Cfg) (x : Idx) : Prop := c.useIndex = true → pageCount x.wbuf < c.maxIdx

theorem idxFlush_ok (hio : ∀ n, c.ioOk n = true) (hix : c.useIndex = true) {x : Idx} (hx : IdxRoom c x) (bm : List Byte) :
    ∃ x', idxFlush c x bm = .ok (x', true) := by
  have h1 : c.bitmapSize * (pageCount x.wbuf + 1) ≤ c.bitmapSize * c.maxIdx := Nat.mul_le_mul_left _ (hx hix)
  have h2 : c.bitmapSize * c.maxIdx ≤ c.pageSize - 16 := Nat.mul_div_le _ _
  have h3 : 0 < c.pageSize - 16 := by
    by_contra h0
    have : c.maxIdx = 0 := by unfold Cfg.maxIdx; rw [Nat.eq_zero_of_not_pos h0, Nat.zero_div]
    have := hx hix
    omega
  unfold idxFlush idxAppend
  rw [if_neg (by omega), Res.ok_bind, writeIdx_eq hio]
  exact ⟨_, rfl⟩

/-- Without an index file the index state does not change. -/
theorem putX_same (hi : c.useIndex = false) {x x' : Idx} {key : Nat} {data : List Byte} {loc : Nat} {d' : Data} {r : Int} {w : Bool}
    (h : putX c d x key data loc = .ok (d', x', r, w)) : x' = x := by
  unfold putX at h
  simp only [hi, Bool.false_eq_true, if_false] at h
  split_ifs at h
  · obtain ⟨⟨d1, p1⟩, -, h⟩ := Res.bind_eq_ok h
    obtain ⟨x1, h1, h⟩ := Res.bind_eq_ok h
    obtain ⟨⟨d2, r2, w2⟩, -, h⟩ := Res.bind_eq_ok h
    simp only [Res.ok.injEq, Prod.mk.injEq] at h h1
    rw [← h.2.1, ← h1]
  · obtain ⟨⟨d2, r2, w2⟩, -, h⟩ := Res.bind_eq_ok h
    simp only [Res.ok.injEq, Prod.mk.injEq] at h
    exact h.2.1.symm
  · simp only [Res.ok.injEq, Prod.mk.injEq] at h
    exact h.2.1.symm

theorem flushX_same (hi : c.useIndex = false) {x x' : Idx} {d' : Data} {r : Int} {w : Bool}
    (h : flushX c d x = .ok (d', x', r, w)) : x' = x := by
  unfold flushX at h
  simp only [hi, Bool.false_eq_true, if_false] at h
  split_ifs at h
  · simp only [Res.ok.injEq, Prod.mk.injEq] at h
    exact h.2.1.symm
  · obtain ⟨⟨d1, p1⟩, -, h⟩ := Res.bind_eq_ok h
    cases p1 with
    | none => simp only [Res.ok.injEq, Prod.mk.injEq] at h; exact h.2.1.symm
    | some p => simp only [Res.ok.injEq, Prod.mk.injEq] at h; exact h.2.1.symm

/-- `embedDBPut` (data part) with any location. -/
theorem dataPutX (hok : c.Ok K) (hs : mn = 0 ∨ c.maxErr ≤ 1) (hv : c.VFile) {P : Nat} (hB : Bounds c lo K P) (T : TableM c lo K mn d L) (hP : d.next + 1 ≤ P)
    (x : Idx) (loc : Nat) {key : Nat} {data : List Byte} (hd : data.length = c.dataSize) (hlo : lo ≤ key) (hk : key < K)
    (hgt : ∀ r ∈ L.all, r.1 < key) (hcache : L.buf.length ≥ c.maxRec → d.buffered ≠ some (d.next % c.N)) :
    (∃ d1 w x', SameButCache d d1 ∧ putX c d x key data loc = .ok (accepted c d1 key data loc, x', 0, w) ∧
      TableM c lo K mn (accepted c d1 key data loc) (L.put c.maxRec (key, data))) ∨
    (∃ d' w, putX c d x key data loc = .ok (d', x, 1, w) ∧ TableM c lo K mn d' L ∧ SameButCache d d' ∧
      Spec.MayRefuse c.maxRec L) := by
  have E := orderCheck_sameButCache (c := c) d key
  rw [putX_eq hok]
  obtain ⟨d', w, h | h⟩ := put_ok hok hB hs T.sim T.room T.cap hP loc hd hlo hk hgt hcache
  · obtain ⟨h1, h2, h3, h4⟩ := h
    rw [putD_eq hok] at h1
    split_ifs at h1 with ho
    · left
      simp only [Res.ok.injEq, Prod.mk.injEq] at h1
      obtain ⟨x', hx'⟩ : ∃ x', (if pageCount d.wbuf ≥ c.maxRec ∧ c.useIndex = true then idxPut c x (some d.next) (hdrBm c d.wbuf) else .ok x) = .ok x' := by
        split_ifs with hi
        · exact idxPut_ok hv.cap hi.2 _ _ _
        · exact ⟨x, rfl⟩
      refine ⟨(orderCheck c d key).1, decide (pageCount d.wbuf ≥ c.maxRec), x', E, ?_, ?_⟩
      · rw [if_pos ho, hx', Res.ok_bind]
      · rw [h1.1]
        refine ⟨h2, h3, h4, ?_⟩
        rw [← h1.1]
        have t1 : (orderCheck c d key).1.min = mn ∨ (orderCheck c d key).1.avail < c.B := by
          rw [E.min, E.avail]; exact T.tight
        unfold accepted
        simp only
        split_ifs
        · exact tight_sealed hok.B0 t1
        · exact t1
    · simp only [Res.ok.injEq, Prod.mk.injEq] at h1
      exact absurd h1.2.1 (by decide)
  · obtain ⟨h1, h2, h3, h4, h5, h6⟩ := h
    rw [putD_eq hok] at h1
    split_ifs at h1 with ho
    · simp only [Res.ok.injEq, Prod.mk.injEq] at h1
      exact absurd h1.2.1 (by decide)
    · right
      simp only [Res.ok.injEq, Prod.mk.injEq] at h1
      refine ⟨(orderCheck c d key).1, false, by rw [if_neg ho], ?_, E, h5, h6⟩
      exact T.congr E (by rw [h1.1]; exact h2)

/-- The same without an index file. -/
theorem dataPut (hok : c.Ok K) (hs : mn = 0 ∨ c.maxErr ≤ 1) (hv : c.VOk) {P : Nat} (hB : Bounds c lo K P) (T : TableM c lo K mn d L) (hP : d.next + 1 ≤ P)
    (x : Idx) (loc : Nat) {key : Nat} {data : List Byte} (hd : data.length = c.dataSize) (hlo : lo ≤ key) (hk : key < K)
    (hgt : ∀ r ∈ L.all, r.1 < key) (hcache : L.buf.length ≥ c.maxRec → d.buffered ≠ some (d.next % c.N)) :
    (∃ d1 w, SameButCache d d1 ∧ putX c d x key data loc = .ok (accepted c d1 key data loc, x, 0, w) ∧
      TableM c lo K mn (accepted c d1 key data loc) (L.put c.maxRec (key, data))) ∨
    (∃ d' w, putX c d x key data loc = .ok (d', x, 1, w) ∧ TableM c lo K mn d' L ∧ SameButCache d d' ∧
      Spec.MayRefuse c.maxRec L) := by
  rcases dataPutX hok hs hv hB T hP x loc hd hlo hk hgt hcache with ⟨d1, w, x', h1, h2, h3⟩ | h
  · have := putX_same hv.idx h2
    subst this
    exact Or.inl ⟨d1, w, h1, h2, h3⟩
  · exact Or.inr h

/-- `embedDBFlush` (data part). -/
theorem dataFlush (hok : c.Ok K) (hs : mn = 0 ∨ c.maxErr ≤ 1) (hv : c.VFile) {P : Nat} (hB : Bounds c lo K P) (T : TableM c lo K mn d L) (hP : d.next + 1 ≤ P)
    (x : Idx) (hx : IdxRoom c x) (hcache : L.buf ≠ [] → d.buffered ≠ some (d.next % c.N)) :
    (∃ x', flushX c d x = .ok (if L.buf = [] then d else sealed c d, x', 0, decide (L.buf ≠ []))) ∧
      TableM c lo K mn (if L.buf = [] then d else sealed c d) L.flush := by
  have hcount : pageCount d.wbuf = L.buf.length := by rw [← T.sim.buf, recs_length]
  obtain ⟨d', w, h1, h2, h3, h4, h5⟩ := flush_ok hok hB hs T.sim T.room T.cap hP hcache
  constructor
  · unfold flushX
    by_cases hb : L.buf = []
    · rw [if_pos (show pageCount d.wbuf < 1 by rw [hcount, hb]; simp), if_pos hb]
      simp [hb]
    · have : 0 < L.buf.length := List.length_pos_iff.mpr hb
      rw [if_neg (show ¬ pageCount d.wbuf < 1 by omega), if_neg hb, writePage_eq hok.io hok.spline, Res.ok_bind]
      by_cases hi : c.useIndex = true
      · obtain ⟨x', hx'⟩ := idxFlush_ok (x := x) hv.io hi hx (hdrBm c (outData c d).wbuf)
        refine ⟨x', ?_⟩
        simp only [indexPage, hok.spline, if_pos hi, Bool.false_eq_true, if_false, hx', Res.ok_bind, if_true]
        simp [hb]
        rfl
      · simp only [indexPage, hok.spline, if_neg hi, Bool.false_eq_true, if_false]
        simp [hb]
        rfl
  · rw [← h5]
    refine ⟨h2, h3, h4, ?_⟩
    rw [h5]
    split_ifs
    · exact T.tight
    · exact tight_sealed hok.B0 T.tight

/-- Locations after the data page was written. -/
theorem locs_sealed (hok : c.Ok K) (hml : d.min ≤ d.next) (R : Room c d) {Q : Page → Prop} (hQ : ∀ p q, SameRecs c p q → Q q → Q p)
    (H : ∀ n, d.min ≤ n → n < d.next → ∀ p, d.dev.file (n % c.N) = some p → Q p) (hw : Q d.wbuf) :
    ∀ n, (sealed c d).min ≤ n → n < (sealed c d).next → ∀ p, (sealed c d).dev.file (n % c.N) = some p → Q p := by
  intro n h1 h2 p hp
  have h1' : outMin c d ≤ n := h1
  have h2' : n < d.next + 1 := h2
  have hp' : (outDev c d).file (n % c.N) = some p := hp
  by_cases hn : n < d.next
  · rw [outDev_keeps hok hml R h1' hn] at hp'
    refine H n ?_ hn p hp'
    unfold outMin at h1'
    split_ifs at h1' <;> omega
  · have : n = d.next := by omega
    subst this
    rw [outDev_new] at hp'
    cases hp'
    exact hQ _ _ (sameRecs_id c d.wbuf d.next) hw

theorem locs_accepted (hok : c.Ok K) (hml : d.min ≤ d.next) (R : Room c d) {Q : Page → Prop} (hQ : ∀ p q, SameRecs c p q → Q q → Q p)
    (H : ∀ n, d.min ≤ n → n < d.next → ∀ p, d.dev.file (n % c.N) = some p → Q p)
    (hw : pageCount d.wbuf ≥ c.maxRec → Q d.wbuf) (key : Nat) (data : List Byte) (loc : Nat) :
    ∀ n, (accepted c d key data loc).min ≤ n → n < (accepted c d key data loc).next →
      ∀ p, (accepted c d key data loc).dev.file (n % c.N) = some p → Q p := by
  unfold accepted
  simp only
  by_cases hf : pageCount d.wbuf ≥ c.maxRec
  · rw [if_pos hf]
    exact locs_sealed hok hml R hQ H (hw hf)
  · rw [if_neg hf]
    exact H

theorem accepted_buf (key : Nat) (data : List Byte) (loc : Nat) : ∃ p, (accepted c d key data loc).wbuf = appendRec c p key data loc ∧
    ((pageCount d.wbuf ≥ c.maxRec ∧ pageCount p = 0) ∨ (pageCount d.wbuf < c.maxRec ∧ p = d.wbuf)) := by
  unfold accepted
  simp only
  by_cases hf : pageCount d.wbuf ≥ c.maxRec
  · rw [if_pos hf]
    exact ⟨_, rfl, Or.inl ⟨hf, sealed_count d⟩⟩
  · rw [if_neg hf]
    exact ⟨_, rfl, Or.inr ⟨by omega, rfl⟩⟩

/-- Slots of the buffer hold records of the log. -/
theorem slot_in_buf (S : Sim c lo K a d L) {i : Nat} (hi : i < pageCount d.wbuf) : ∃ r ∈ L.all, r.1 = slotKey c d.wbuf i :=
  ⟨_, mem_all_buf (by rw [← S.buf]; exact mem_recs.mpr ⟨i, hi, rfl⟩), rfl⟩

theorem slot_in_page (S : Sim c lo K a d L) {n : Nat} (h1 : d.min ≤ n) (h2 : n < d.next) {p : Page}
    (hp : d.dev.file (n % c.N) = some p) {i : Nat} (hi : i < pageCount p) : ∃ r ∈ L.all, r.1 = slotKey c p i := by
  have hl : n < L.pages.length := by rw [← S.next]; exact h2
  obtain ⟨q, q1, q2, -⟩ := S.stored n h1 hl
  rw [hp] at q1
  cases q1
  exact ⟨_, mem_all_page hl (by rw [← q2]; exact mem_recs.mpr ⟨i, hi, rfl⟩), rfl⟩

/-- The state after the preparation of `embedDBPutVar`. -/
theorem VTableM.pre (hok : c.Ok K) (hv : c.VFile) (hK : K ≤ 256 ^ c.keySize) (T : VTableM c lo lv K mn E d v l g)
    (hne : E → pageCount d.wbuf ≥ c.maxRec → HasData c g v) (hr : RoomFor c E ((g.s.length + padOf c d) / c.vcap)) (hvf : Bool) :
    ∃ g', VTableM c lo lv K mn E d { preVar c d v with hasVar := hvf } l g' ∧ g'.es = g.es ∧
      g'.s.length ≤ g.s.length + padOf c d ∧
      g'.s.length + 4 ≤ ((preVar c d v).next + 1) * c.vcap ∧
      v.next ≤ (preVar c d v).next ∧ (preVar c d v).next ≤ v.next + 1 ∧
      (pageCount d.wbuf ≥ c.maxRec → DataBelow c g'.es ((preVar c d v).next * c.vcap) d.wbuf) := by
  obtain ⟨g', z, p1, p2, pz, p3, p4, p5, p6, p7, p8, p9⟩ := T.inv.pre hv hK hok.plain T.opn d hne hr
  have hes := T.ents.append p2 p3
  refine ⟨g', ⟨T.tab, ?_, ?_, hes, by rw [p3]; exact T.known, by rw [p3]; exact T.vars, by rw [p3]; exact T.novar, ?_, by rw [p3]; exact T.lbuf⟩,
    p3, (by rw [p2, List.length_append, List.length_replicate]; omega), p4, p6, p7, ?_⟩
  · have V := p1.sim
    exact ⟨⟨V.lo, V.hi, V.loc, V.klen, V.dvd, V.sum, V.tight, V.stored, V.buf, V.cacheN, V.cache, V.only⟩, p1.lim,
      fun hE => ⟨(p1.keys hE).pages, (p1.keys hE).tops, (p1.keys hE).buf, (p1.keys hE).last, (p1.keys hE).jr.grow p1.sim.lo (List.prefix_refl _) rfl rfl rfl⟩, p1.minOk, p1.wrap, p1.era, p1.bound⟩
  · unfold Open; simp only; omega
  · intro n h1 h2 p hp
    obtain ⟨q1, q2⟩ := T.locs n h1 h2 p hp
    rw [p3]
    exact ⟨q1, q2.mono (Nat.mul_le_mul_right _ p6)⟩
  · intro hf i hi e he _
    rw [p9 hf]
    exact (hes.ok e he).fin_le

/-- Bytes of the stream that inserting a record takes at most. -/
def storedLen : Option (List Byte) → Nat
  | none => 0
  | some bs => 4 + bs.length

/-- The same with the bytes left unused. -/
def putSize (c : Cfg) (d : Data) (b : Option (List Byte)) : Nat := padOf c d + storedLen b

theorem VTableM.put (hok : c.Ok K) (hs : mn = 0 ∨ c.maxErr ≤ 1) (hv : c.VFile) {P : Nat} (hB : Bounds c lo K P) (T : VTableM c lo lv K mn E d v l g)
    (hP : d.next + 1 ≤ P) (x : Idx) {key : Nat} {data : List Byte} {b : Option (List Byte)} (hd : data.length = c.dataSize)
    (hlo : lo ≤ key) (hlv : lv ≤ key) (hk : key + 1 < K) (hb : ∀ bs, b = some bs → bs.length < 2 ^ 32) (hgt : ∀ r ∈ l.log.all, r.1 < key)
    (hcache : pageCount d.wbuf ≥ c.maxRec → d.buffered ≠ some (d.next % c.N))
    (hne : E → pageCount d.wbuf ≥ c.maxRec → HasData c g v) (hr : RoomFor c E ((g.s.length + putSize c d b) / c.vcap)) :
    ∃ d' x' v' g', v.next ≤ v'.next ∧ g'.s.length ≤ g.s.length + putSize c d b ∧
      ((stepV c d x v (.put key data b) = .ok (d', x', v', .code 0) ∧ VTableM c lo lv K mn E d' v' (l.put c.maxRec key data b) g' ∧
        (∀ bs, b = some bs → (∃ e, g'.es = g.es ++ [e] ∧ e.key = key ∧ e.bs = bs ∧ e.a / c.vcap = (preVar c d v).next) ∧
          (E → HasData c g' v')) ∧
        (b = none → g'.es = g.es)) ∨
      (stepV c d x v (.put key data b) = .ok (d', x', v', .code 1) ∧ VTableM c lo lv K mn E d' v' l g' ∧ g'.es = g.es ∧
        Spec.MayRefuse c.maxRec l.log)) := by
  have hK := hB.key
  have hcap := hv.cap4
  have hcount : pageCount d.wbuf = l.log.buf.length := by rw [← T.tab.sim.buf, recs_length]
  have hr1 : RoomFor c E ((g.s.length + padOf c d) / c.vcap) := by
    rcases hr with h | h
    · exact Or.inl h
    · right
      refine le_trans (Nat.div_le_div_right ?_) h
      unfold putSize
      omega
  obtain ⟨g1, T1, t1, tz, t2, t3, t4, t5⟩ := T.pre hok hv hK hne hr1 b.isSome
  obtain ⟨v1, hv1⟩ : ∃ v1 : Var, v1 = { preVar c d v with hasVar := b.isSome } := ⟨_, rfl⟩
  rw [← hv1] at T1
  have hn1 : v1.next = (preVar c d v).next := by rw [hv1]
  rw [← hn1] at t2 t3 t4 t5
  have hkey : key < 256 ^ c.keySize := by omega
  have hknew : ∀ e ∈ g1.es, e.key < key := by
    intro e he
    obtain ⟨r, r1, r2⟩ := T1.known e he
    rw [← r2]; exact hgt r r1
  have hh : v1.hasVar = b.isSome := by rw [hv1]
  have hpos : 0 < c.numVar * c.pageSize := Nat.mul_pos hv.nv (by have := hv.ps; omega)
  -- where the data starts
  have hopen : Open c g1 v1 := T1.opn
  have hlov := T1.inv.sim.lo
  have e1 : (v1.next + 1) * c.vcap = v1.next * c.vcap + c.vcap := by ring
  have hdiv : g1.s.length / c.vcap = v1.next := div_page hlov hopen
  have hmod : g1.s.length % c.vcap = g1.s.length - v1.next * c.vcap := by
    have := Nat.div_add_mod' g1.s.length c.vcap
    rw [hdiv] at this
    omega
  have haddr : v1.loc % (c.numVar * c.pageSize) = vaddr c g1.s.length % (c.numVar * c.pageSize) := by
    rw [T1.inv.sim.loc.mod]
    unfold vaddr
    rw [hdiv, hmod]
  -- the old pages
  have hold : ∀ n, d.min ≤ n → n < d.next → ∀ p, d.dev.file (n % c.N) = some p →
      ∀ i, i < pageCount p → slotKey c p i ≠ key := by
    intro n h1 h2 p hp i hi
    obtain ⟨r, r1, r2⟩ := slot_in_page T.tab.sim h1 h2 hp hi
    have := hgt r r1
    omega
  have hbufk : ∀ i, i < pageCount d.wbuf → slotKey c d.wbuf i ≠ key := by
    intro i hi
    obtain ⟨r, r1, r2⟩ := slot_in_buf T.tab.sim hi
    have := hgt r r1
    omega
  have hcap16 := hok.cap16
  -- the data part
  have hdata := dataPutX hok hs hv hB T.tab hP x (varLoc c v1) hd hlo (by omega) hgt (by rw [← hcount]; exact hcache)
  have hput : ∀ (d' : Data) (x' : Idx) (r : Int) (w : Bool), putX c d x key data (varLoc c v1) = .ok (d', x', r, w) →
      stepV c d x v (.put key data b) = (match b with
        | none => .ok (d', x', v1, .code r)
        | some bs => if r ≠ 0 then .ok (d', x', v1, .code r) else (storeBytes c v1 key bs >>= fun v2 => .ok (d', x', v2, .code 0))) := by
    intro d' x' r w hx
    cases b with
    | none =>
      simp only [Option.isSome_none] at hv1
      simp only [stepV, putVar, hv.vdata, if_true, ← hv1]
      rw [hx]
      rfl
    | some bs =>
      simp only [Option.isSome_some] at hv1
      simp only [stepV, putVar, hv.vdata, if_true, ← hv1]
      rw [hx]
      simp only [Res.ok_bind]
      by_cases hr0 : r ≠ 0
      · rw [if_pos hr0, if_pos hr0]; rfl
      · rw [if_neg hr0, if_neg hr0]
        cases storeBytes c v1 key bs with
        | ok v2 => simp [hok.plain]
        | ub => rfl
        | fuel => rfl
  rcases hdata with ⟨d1, w, x', E1, hx, T'⟩ | ⟨d', w, hx, T', E1, hm⟩
  · have hstep := hput _ _ _ _ hx
    have hml : d1.min ≤ d1.next := by rw [E1.min, E1.next]; exact T.tab.sim.minle
    have hR : Room c d1 := T.tab.room.congr E1
    have hcnt : ∀ p : Page, ((pageCount d1.wbuf ≥ c.maxRec ∧ pageCount p = 0) ∨ (pageCount d1.wbuf < c.maxRec ∧ p = d1.wbuf)) →
        pageCount p < 65535 := by
      rintro p (⟨-, h⟩ | ⟨h1, h2⟩)
      · omega
      · rw [h2]; omega
    have hother : ∀ r ∈ (l.log.put c.maxRec (key, data)).live mn, r ∈ l.log.live mn ∨ r = (key, data) :=
      fun r hr => put_live (by have := T.tab.sim.amin; have := T.tab.sim.minle; have := T.tab.sim.next; omega) hr
    cases b with
    | none =>
      have hloc : varLoc c v1 = noVar := by unfold varLoc; rw [hh]; rfl
      refine ⟨_, x', v1, g1, by omega, by unfold putSize; omega, Or.inl ⟨hstep, ?_, (fun bs h => by cases h), fun _ => t1⟩⟩
      refine ⟨T', T1.inv, T1.opn, T1.ents, ?_, ?_, ?_, ?_, ?_⟩
      · intro e he
        obtain ⟨r, r1, r2⟩ := T1.known e he
        exact ⟨r, by simp only [VLog.put]; rw [Log_put_all]; exact List.mem_append_left _ r1, r2⟩
      · intro e he
        simp only [VLog.put]
        rw [if_neg (by have := hknew e he; omega)]
        exact T1.vars e he
      · intro r hr hne'
        simp only [VLog.put]
        rcases hother r hr with h | h
        · rw [if_neg (by have := hgt r (mem_all_of_live h); omega)]
          exact T1.novar r h hne'
        · rw [h]; simp
      · refine locs_accepted hok hml hR (Q := fun p => LocOk c g1.es p ∧ DataBelow c g1.es (v1.next * c.vcap) p)
          (fun p q hs hq => ⟨hs.locOk hq.1, hs.below hq.2⟩) ?_ ?_ key data _
        · rw [E1.min, E1.next, E1.dev]; exact T1.locs
        · rw [E1.wbuf]; exact fun hf => ⟨T1.lbuf, t5 hf⟩
      · obtain ⟨p, p1, p2⟩ := accepted_buf (c := c) (d := d1) key data (varLoc c v1)
        rw [p1]
        refine LocOk.append hok hv.vdata ?_ hd hkey (by rw [hloc]; decide) (hcnt p p2)
          (Or.inl ⟨hloc, fun e he => by have := hknew e he; omega⟩)
        rcases p2 with ⟨-, h⟩ | ⟨-, h⟩
        · intro i hi; omega
        · rw [h, E1.wbuf]; exact T1.lbuf
    | some bs =>
      have hloc : varLoc c v1 = vaddr c g1.s.length % (c.numVar * c.pageSize) := by
        unfold varLoc; rw [hh, if_pos (by rfl), haddr]
      have hlt : varLoc c v1 < 2 ^ 32 := by
        rw [hloc]
        have := Nat.mod_lt (vaddr c g1.s.length) hpos
        have := hv.mem
        omega
      obtain ⟨v2, g2, s1, s2, s3, s4, s5, s6, s7, s8, s9⟩ := T1.inv.storeBytes hv (by omega) hk t2 hlv hknew (by
        rcases hr with h | h
        · exact Or.inl h
        · right
          refine le_trans (Nat.div_le_div_right ?_) h
          unfold putSize; simp only [storedLen]; omega) (bs := bs)
      have hfull := hstep
      simp only at hfull
      rw [if_neg (by simp), s1, Res.ok_bind] at hfull
      have hes2 : EntsOk c g2 := by
        have hall : EntOk c g2.s (newEnt g1 key bs) := by
          refine ⟨hb bs rfl, ?_, g1.s, [], rfl, ?_⟩
          · show g1.s.length % c.vcap + 4 ≤ c.vcap
            omega
          · rw [s4]; simp only [newEnt, List.append_nil, List.append_assoc]
        constructor
        · intro e he
          rw [s5] at he
          rcases List.mem_append.mp he with h | h
          · rw [s4, List.append_assoc]; exact (T1.ents.ok e h).append _
          · rw [List.mem_singleton.mp h]; exact hall
        · rw [s5, List.pairwise_append]
          refine ⟨T1.ents.sorted, List.pairwise_singleton _ _, ?_⟩
          intro e he e' he'
          rw [List.mem_singleton.mp he']
          exact ⟨hknew e he, (T1.ents.ok e he).fin_le⟩
      refine ⟨_, x', v2, g2, by omega, ?_, Or.inl ⟨hfull, ?_, ?_, (fun h => by cases h)⟩⟩
      · rw [s4]
        simp only [List.length_append, leBytes_length, putSize, storedLen]
        omega
      · refine ⟨T', s2, s3, hes2, ?_, ?_, ?_, ?_, ?_⟩
        · intro e he
          simp only [VLog.put]
          rw [Log_put_all]
          rw [s5] at he
          rcases List.mem_append.mp he with h | h
          · obtain ⟨r, r1, r2⟩ := T1.known e h
            exact ⟨r, List.mem_append_left _ r1, r2⟩
          · rw [List.mem_singleton.mp h]
            exact ⟨(key, data), List.mem_append_right _ (List.mem_singleton.mpr rfl), rfl⟩
        · intro e he
          simp only [VLog.put]
          rw [s5] at he
          rcases List.mem_append.mp he with h | h
          · rw [if_neg (by have := hknew e h; omega)]
            exact T1.vars e h
          · rw [List.mem_singleton.mp h]; simp [newEnt]
        · intro r hr hne'
          simp only [VLog.put]
          rw [s5] at hne'
          rcases hother r hr with h | h
          · rw [if_neg (by have := hgt r (mem_all_of_live h); omega)]
            exact T1.novar r h (fun e he => hne' e (List.mem_append_left _ he))
          · exact absurd (by rw [h]; rfl) (hne' (newEnt g1 key bs) (List.mem_append_right _ (List.mem_singleton.mpr rfl)))
        · rw [s5]
          have hmore : ∀ p, (∀ i, i < pageCount p → slotKey c p i ≠ key) → LocOk c g1.es p ∧ DataBelow c g1.es (v1.next * c.vcap) p →
              LocOk c (g1.es ++ [newEnt g1 key bs]) p ∧ DataBelow c (g1.es ++ [newEnt g1 key bs]) (v2.next * c.vcap) p :=
            fun p hp hq => ⟨hq.1.more _ hp, (hq.2.more _ hp).mono (Nat.mul_le_mul_right _ s7)⟩
          refine locs_accepted hok hml hR (Q := fun p => LocOk c (g1.es ++ [newEnt g1 key bs]) p ∧
              DataBelow c (g1.es ++ [newEnt g1 key bs]) (v2.next * c.vcap) p)
            (fun p q hs hq => ⟨hs.locOk hq.1, hs.below hq.2⟩) ?_ ?_ key data _
          · rw [E1.min, E1.next, E1.dev]
            exact fun n h1 h2 p hp => hmore p (hold n h1 h2 p hp) (T1.locs n h1 h2 p hp)
          · rw [E1.wbuf]; exact fun hf => hmore _ hbufk ⟨T1.lbuf, t5 hf⟩
        · obtain ⟨p, p1, p2⟩ := accepted_buf (c := c) (d := d1) key data (varLoc c v1)
          rw [p1, s5]
          refine LocOk.append hok hv.vdata ?_ hd hkey hlt (hcnt p p2)
            (Or.inr ⟨newEnt g1 key bs, List.mem_append_right _ (List.mem_singleton.mpr rfl), rfl, hloc⟩)
          rcases p2 with ⟨-, h⟩ | ⟨-, h⟩
          · intro i hi; omega
          · rw [h, E1.wbuf]; exact T1.lbuf.more _ hbufk
      · intro bs' hbs
        cases hbs
        refine ⟨⟨newEnt g1 key bs, by rw [s5, t1], rfl, rfl, ?_⟩, s9⟩
        show g1.s.length / c.vcap = (preVar c d v).next
        rw [hdiv, hn1]
  · have hstep := hput _ _ _ _ hx
    refine ⟨d', x, v1, g1, by omega, ?_, Or.inr ⟨?_, ?_, t1, hm⟩⟩
    · unfold putSize; omega
    · rw [hstep]
      cases b <;> simp
    · refine ⟨T', T1.inv, T1.opn, T1.ents, T1.known, T1.vars, T1.novar, ?_, by rw [E1.wbuf]; exact T1.lbuf⟩
      rw [E1.min, E1.next, E1.dev]
      exact T1.locs

/-! ### Flush -/

theorem flush_len {n n' a b m : Nat} (h1 : n * m ≤ a) (h2 : n' ≤ n + 1) (h3 : n' * m = b) : b ≤ a + m := by
  have := Nat.mul_le_mul_right m h2
  have e : (n + 1) * m = n * m + m := by ring
  omega

theorem VTableM.flush (hok : c.Ok K) (hs : mn = 0 ∨ c.maxErr ≤ 1) (hv : c.VFile) {P : Nat} (hB : Bounds c lo K P) (T : VTableM c lo lv K mn E d v l g)
    (hP : d.next + 1 ≤ P) {x : Idx} (hx : IdxRoom c x) (hcache : pageCount d.wbuf ≠ 0 → d.buffered ≠ some (d.next % c.N))
    (hr : RoomFor c E (v.next + 1)) :
    ∃ d' x' v' g', stepV c d x v .flush = .ok (d', x', v', .code 0) ∧ VTableM c lo lv K mn E d' v' ⟨l.log.flush, l.var⟩ g' ∧
      g'.es = g.es ∧ v.next ≤ v'.next ∧ g'.s.length ≤ g.s.length + c.vcap := by
  have hK := hB.key
  have hcount : pageCount d.wbuf = l.log.buf.length := by rw [← T.tab.sim.buf, recs_length]
  have hmn : mn ≤ l.log.pages.length := by have := T.tab.sim.amin; have := T.tab.sim.minle; have := T.tab.sim.next; omega
  obtain ⟨⟨x', h1⟩, h2⟩ := dataFlush hok hs hv hB T.tab hP x hx (fun hne => hcache (by
    rw [hcount]; exact fun h0 => hne (List.length_eq_zero_iff.mp h0)))
  simp only [stepV, flushV]
  rw [h1, Res.ok_bind]
  simp only
  by_cases hb : l.log.buf = []
  · rw [if_pos hb] at h2
    rw [if_neg (by simp [hb]), Res.ok_bind, if_pos hb]
    exact ⟨d, x', v, g, rfl, ⟨h2, T.inv, T.opn, T.ents, (by simp only [Log_flush_all]; exact T.known), T.vars,
      (fun r hr => T.novar r (flush_live hmn hr)), T.locs, T.lbuf⟩, rfl, le_refl _, by omega⟩
  · rw [if_neg hb] at h2
    obtain ⟨g', z, v', f1, f2, f3, f4, f5, f6, f7, f8, f9, f10⟩ := T.inv.flush hv hK T.opn (fun _ => hr)
    rw [if_pos (by simp [hb]), Res.ok_bind, if_neg hb, f1]
    have hes := T.ents.append f3 f4
    refine ⟨sealed c d, x', v', g', rfl, ⟨h2, f2, f10, hes, ?_, ?_, ?_, ?_, ?_⟩, f4, f6, flush_len T.inv.sim.lo f7 f9⟩
    · simp only [Log_flush_all]; rw [f4]; exact T.known
    · rw [f4]; exact T.vars
    · rw [f4]; exact fun r hr => T.novar r (flush_live hmn hr)
    · refine locs_sealed hok T.tab.sim.minle T.tab.room (Q := fun p => LocOk c g'.es p ∧ DataBelow c g'.es (v'.next * c.vcap) p)
        (fun p q hs hq => ⟨hs.locOk hq.1, hs.below hq.2⟩) ?_ ?_
      · intro n h1 h2 p hp
        obtain ⟨q1, q2⟩ := T.locs n h1 h2 p hp
        rw [f4]
        exact ⟨q1, q2.mono (Nat.mul_le_mul_right _ f6)⟩
      · refine ⟨by rw [f4]; exact T.lbuf, ?_⟩
        intro i _ e he _
        rw [f9]; exact (hes.ok e he).fin_le
    · intro i hi
      rw [sealed_count] at hi
      omega

/-! ### Lookups -/

theorem VTableM.congr (T : VTableM c lo lv K mn E d v l g) {d' : Data} (h : SameButCache d d') (S : Sim c lo K mn d' l.log) :
    VTableM c lo lv K mn E d' v l g :=
  ⟨T.tab.congr h S, T.inv, T.opn, T.ents, T.known, T.vars, T.novar, (by rw [h.min, h.next, h.dev]; exact T.locs),
    (by rw [h.wbuf]; exact T.lbuf)⟩

theorem VTableM.recache (T : VTableM c lo lv K mn E d v l g) {v' : Var} (h : VSame v v') (hs : VSync v') : VTableM c lo lv K mn E d v' l g :=
  ⟨T.tab, T.inv.recache h hs, (by unfold Open; rw [h.next]; exact T.opn), T.ents, T.known, T.vars, T.novar,
    (by rw [h.next]; exact T.locs), T.lbuf⟩

theorem VTableM.get (hok : c.Ok K) {P : Nat} (hB : Bounds c lo K P) (T : VTableM c lo lv K mn E d v l g) (hP : d.next ≤ P)
    (x : Idx) (h255 : c.maxRec ≤ 255) {key : Nat} (hk : key < K) :
    ∃ d' r out, stepV c d x v (.get key) = .ok (d', x, v, .got r out) ∧ VTableM c lo lv K mn E d' v l g ∧
      Spec.Out.got r out = Spec.answer (l.log.live d.min) key ∧ d'.next = d.next ∧ d'.min = d.min := by
  obtain ⟨d', code, out, h1, h2, h3, h4⟩ := get_ok hok.cmp hok.N0 hB hok.spline hk T.tab.sim hP (by
    intro i hi
    have := T.tab.cap.2
    omega)
  refine ⟨d', code, out, ?_, T.congr h2 h3, answer_of h4, h2.next, h2.min⟩
  simp only [stepV]
  rw [h1]
  rfl

/-- What is answered about the variable data of `key`: code and bytes. -/
def VarAns (c : Cfg) (g : Gh) (key : Nat) (r : Int) (bs : Option (List Byte)) : Prop :=
  (r = 0 ∧ bs = none ∧ ∀ e ∈ g.es, e.key ≠ key) ∨
    ∃ e ∈ g.es, e.key = key ∧ ((e.a / c.vcap < g.vmin ∧ r = 1 ∧ bs = none) ∨ (g.vmin ≤ e.a / c.vcap ∧ r = 0 ∧ bs = some e.bs))

/-- What is answered about the variable data of `key`: code and stream. -/
def StAns (c : Cfg) (g : Gh) (v : Var) (key : Nat) (r : Int) (st : Option Stream) : Prop :=
  (r = 0 ∧ st = none ∧ ∀ e ∈ g.es, e.key ≠ key) ∨
    ∃ e ∈ g.es, e.key = key ∧ ((e.a / c.vcap < g.vmin ∧ r = 1 ∧ st = none) ∨
      (g.vmin ≤ e.a / c.vcap ∧ r = 0 ∧ e.fin ≤ v.next * c.vcap ∧
        ∃ s, st = some s ∧ s.total = e.bs.length ∧ s.read = 0 ∧ At c s.off (e.a + 4)))

/-- Where the location stored with a record leads. -/
def LocFits (c : Cfg) (g : Gh) (v : Var) (key loc : Nat) : Prop :=
  (loc = noVar ∧ ∀ e ∈ g.es, e.key ≠ key) ∨
    ∃ e ∈ g.es, e.key = key ∧ loc = vaddr c e.a % (c.numVar * c.pageSize) ∧ e.fin ≤ v.next * c.vcap

theorem setupPart (hv : c.VFile) (hc : CmpOk c.cmpKey K) (I : VInv c E lv K g v) (hes : EntsOk c g) (hs : VSync v) {key i : Nat}
    (hloc : LocFits c g v key (slotLoc c d.rbuf i)) :
    ∃ v1 s st, setupStream c d v key i = .ok (v1, s, st) ∧ VSame v v1 ∧ VSync v1 ∧ (s = 0 ∨ s = 1) ∧ StAns c g v1 key (getCode s) st := by
  rcases hloc with ⟨h1, h2⟩ | ⟨e, e1, e2, e3, e4⟩
  · refine ⟨v, 0, none, ?_, VSame.refl v, hs, Or.inl rfl, Or.inl ⟨rfl, rfl, h2⟩⟩
    unfold setupStream
    simp only
    rw [if_pos h1]
  · subst e2
    obtain ⟨s1, s2⟩ := setup_ok hv hc I hes hs e1 e4 e3
    by_cases hlt : e.a / c.vcap < g.vmin
    · exact ⟨v, 1, none, s1 hlt, VSame.refl v, hs, Or.inr rfl, Or.inr ⟨e, e1, rfl, Or.inl ⟨hlt, rfl, rfl⟩⟩⟩
    · obtain ⟨v1, st, t1, t2, t3, t4, t5, t6⟩ := s2 (by omega)
      exact ⟨v1, 0, some st, t1, t2, t3, Or.inl rfl,
        Or.inr ⟨e, e1, rfl, Or.inr ⟨by omega, rfl, by rw [t2.next]; exact e4, st, rfl, t4, t5, t6⟩⟩⟩

theorem StAns.readAll (hv : c.VFile) (I : VInv c E lv K g v) (hes : EntsOk c g) (hs : VSync v) {key : Nat} {r : Int}
    {st : Option Stream} (h : StAns c g v key r st) :
    ∃ v' bs, readAll c v st = .ok (v', bs) ∧ VSame v v' ∧ VSync v' ∧ VarAns c g key r bs := by
  rcases h with ⟨rfl, rfl, h⟩ | ⟨e, e1, rfl, ⟨h1, rfl, rfl⟩ | ⟨h1, rfl, h2, s, rfl, h3, h4, h5⟩⟩
  · exact ⟨v, none, rfl, VSame.refl v, hs, Or.inl ⟨rfl, rfl, h⟩⟩
  · exact ⟨v, none, rfl, VSame.refl v, hs, Or.inr ⟨e, e1, rfl, Or.inl ⟨h1, rfl, rfl⟩⟩⟩
  · obtain ⟨v', r1, r2, r3⟩ := readAll_ok hv I hes hs e1 h2 h1 h3 h4 h5
    exact ⟨v', some e.bs, r1, r2, r3, Or.inr ⟨e, e1, rfl, Or.inr ⟨h1, rfl, rfl⟩⟩⟩

/-- Is the key in the write buffer? -/
def inBuf (c : Cfg) (d : Data) (key : Nat) : Prop := ∃ i, i < pageCount d.wbuf ∧ slotKey c d.wbuf i = key

/-- The variable data file that `embedDBGetVar` reads from. -/
noncomputable def readFrom (c : Cfg) (d : Data) (v : Var) (key : Nat) : Var :=
  open Classical in if inBuf c d key then (flushVar c v).1 else v

theorem VTableM.getVarCore (hok : c.Ok K) (hv : c.VFile) {P : Nat} (hB : Bounds c lo K P) (T : VTableM c lo lv K mn E d v l g) (hP : d.next ≤ P)
    (h128 : c.maxRec ≤ 128) {key : Nat} (hk : key < K) (hs : VSync (readFrom c d v key)) (hr : RoomFor c E (v.next + 1)) :
    ∃ d' v' g' r out st, EDB.getVar c d v key = .ok (d', v', r, out, st) ∧
      VInv c E lv K g' v' ∧ EntsOk c g' ∧ VSync v' ∧
      ((inBuf c d key → d.buffered = none) → VTableM c lo lv K mn E d' v' l g') ∧ g'.es = g.es ∧ (g'.vmin = 0 ∨ E) ∧
      v.next ≤ v'.next ∧ g'.s.length ≤ g.s.length + c.vcap ∧ d'.next = d.next ∧ d'.min = d.min ∧
      (match Spec.lookup (l.log.live d.min) key with
       | none => r = -1 ∧ out = none ∧ st = none
       | some a => out = some a ∧ StAns c g' v' key r st) := by
  have hK := hB.key
  have hcap2 := T.tab.cap.2
  have hcount : pageCount d.wbuf = l.log.buf.length := by rw [← T.tab.sim.buf, recs_length]
  have hsorted := Log_live_sorted T.tab.sim.sorted d.min
  obtain ⟨r, hr1, hr2⟩ := searchNode_ok hok.cmp T.tab.sim.sortedBuf hk
  simp only [EDB.getVar, hv.vdata, if_true]
  cases r with
  | some i =>
    obtain ⟨i1, i2⟩ := (hr2 i).mp rfl
    have hin : inBuf c d key := ⟨i, i1, i2⟩
    have hsb : searchBuffer c d.wbuf key = .ok ((i : Int), some (slotData c d.wbuf i)) := by
      unfold searchBuffer
      rw [if_neg (by omega), hr1]
      simp only [Res.ok_bind]
      unfold toInt8
      simp only
      rw [Nat.mod_eq_of_lt (by omega), if_pos (by omega)]
    rw [hsb]
    simp only [Res.ok_bind]
    rw [if_pos (by omega), if_neg (by omega)]
    obtain ⟨g', z, v1, f1, f2, f3, f4, f5, f6, f7, f8, f9, f10⟩ := T.inv.flush hv hK T.opn (fun _ => hr)
    have hes := T.ents.append f3 f4
    have hs1 : VSync v1 := by
      have := hs
      unfold readFrom at this
      rw [if_pos hin, f1] at this
      exact this
    have T1 : VTableM c lo lv K mn E d v1 l g' := by
      refine ⟨T.tab, f2, f10, hes, by rw [f4]; exact T.known, by rw [f4]; exact T.vars, by rw [f4]; exact T.novar, ?_,
        by rw [f4]; exact T.lbuf⟩
      intro n h1 h2 p hp
      obtain ⟨q1, q2⟩ := T.locs n h1 h2 p hp
      rw [f4]
      exact ⟨q1, q2.mono (Nat.mul_le_mul_right _ f6)⟩
    obtain ⟨v', s, st, p1, p3, p4, -, p5⟩ := setupPart (d := { d with rbuf := d.wbuf }) (i := i) (key := key) hv hok.cmp f2 hes hs1 (by
      rcases T1.lbuf i i1 with ⟨h1, h2⟩ | ⟨e, e1, e2, e3⟩
      · left; rw [i2] at h2; exact ⟨h1, h2⟩
      · right; rw [i2] at e2
        exact ⟨e, e1, e2, e3, by rw [f9]; exact (hes.ok e e1).fin_le⟩)
    rw [f1]
    simp only [Int.toNat_natCast]
    rw [p1]
    simp only [Res.ok_bind]
    refine ⟨_, v', g', _, _, _, rfl, f2.recache p3 p4, hes, p4, ?_, f4, f2.wrap, by rw [p3.next]; exact f6, flush_len T.inv.sim.lo f7 f9, rfl, rfl, ?_⟩
    · intro hno
      have hno := hno hin
      refine (T1.recache p3 p4).congr (d' := { d with rbuf := d.wbuf }) ⟨rfl, rfl, rfl, rfl, rfl, rfl, rfl, rfl⟩ ?_
      exact T.tab.sim.congr_cache ⟨rfl, rfl, rfl, rfl, rfl, rfl, rfl, rfl⟩ (fun ph h => by simp only at h; rw [hno] at h; cases h)
        (fun ph h => by simp only at h; rw [hno] at h; cases h)
    · have hl : Spec.lookup (l.log.live d.min) key = some (slotData c d.wbuf i) := by
        rw [lookup_eq_some hsorted, mem_live]
        right
        rw [← T.tab.sim.buf, mem_recs]
        exact ⟨i, i1, by rw [i2]⟩
      rw [hl]
      exact ⟨rfl, p5⟩
  | none =>
    have hnin : ¬ inBuf c d key := by
      rintro ⟨i, h1, h2⟩
      exact absurd ((hr2 i).mpr ⟨h1, h2⟩) (by simp)
    have hsb : searchBuffer c d.wbuf key = .ok (-1, none) := by
      unfold searchBuffer
      split_ifs
      · rfl
      · rw [hr1]; rfl
    have hs1 : VSync v := by
      unfold readFrom at hs
      rw [if_neg hnin] at hs
      exact hs
    rw [hsb]
    simp only [Res.ok_bind]
    rw [if_neg (by simp)]
    obtain ⟨d', code, out, h1, h2, h3, h4⟩ := get_ok hok.cmp hok.N0 hB hok.spline hk T.tab.sim hP (by
      intro i hi
      omega)
    rw [h1]
    simp only [Res.ok_bind]
    have T1 := T.congr h2 h3
    rcases h4 with ⟨a, a1, a2, a3⟩ | ⟨a1, a2, a3⟩
    · subst a2 a3
      rw [if_pos rfl]
      have hno : ∀ r ∈ l.log.buf, r.1 ≠ key := by
        intro r hr he
        rw [← T.tab.sim.buf, mem_recs] at hr
        obtain ⟨j, j1, j2⟩ := hr
        exact hnin ⟨j, j1, by rw [← he, j2]⟩
      obtain ⟨q, i, q1, q2, q3, q4, q5, q6⟩ := get_page hok.cmp hok.N0 hB hok.spline hk T.tab.sim hP hno h1
      rw [q4]
      simp only [Res.ok_bind]
      obtain ⟨w1, w2⟩ := T1.locs q (by rw [h2.min]; exact q1) (by rw [h2.next]; exact q2) d'.rbuf q3
      have hi : i < c.maxRec := by
        obtain ⟨p, z1, z2, -⟩ := T1.tab.sim.stored q (by rw [h2.min]; exact q1) (by rw [← T.tab.sim.next]; exact q2)
        rw [q3] at z1
        cases z1
        have hlen := T.tab.cap.1 _ (List.getElem_mem (show q < l.log.pages.length by rw [← T.tab.sim.next]; exact q2))
        rw [← z2, recs_length] at hlen
        omega
      rw [if_neg (by unfold toInt8; simp only; rw [Nat.mod_eq_of_lt (by omega), if_pos (by omega)]; omega)]
      obtain ⟨v', s, st, p1, p3, p4, -, p5⟩ := setupPart (d := d') (i := i) (key := key) hv hok.cmp T.inv T.ents hs1 (by
        rcases w1 i q5 with ⟨h1, h2⟩ | ⟨e, e1, e2, e3⟩
        · left; rw [q6] at h2; exact ⟨h1, h2⟩
        · right; rw [q6] at e2
          exact ⟨e, e1, e2, e3, w2 i q5 e e1 (by rw [q6]; exact e2)⟩)
      rw [p1]
      simp only [Res.ok_bind]
      refine ⟨d', v', g, _, _, _, rfl, T.inv.recache p3 p4, T.ents, p4, fun _ => T1.recache p3 p4, rfl, T.inv.wrap, by rw [p3.next], by omega, h2.next, h2.min, ?_⟩
      rw [a1]
      exact ⟨rfl, p5⟩
    · subst a2 a3
      rw [if_neg (by decide)]
      refine ⟨d', v, g, _, _, _, rfl, T.inv, T.ents, hs1, fun _ => T1, rfl, T.inv.wrap, le_refl _, by omega, h2.next, h2.min, ?_⟩
      rw [a1]
      exact ⟨rfl, rfl, rfl⟩

theorem VTableM.getVar (hok : c.Ok K) (hv : c.VFile) {P : Nat} (hB : Bounds c lo K P) (T : VTableM c lo lv K mn E d v l g) (hP : d.next ≤ P)
    (x : Idx) (h128 : c.maxRec ≤ 128) {key : Nat} (hk : key < K) (hs : VSync (readFrom c d v key)) (hr : RoomFor c E (v.next + 1)) :
    ∃ d' v' g' r out bs, stepV c d x v (.getVar key) = .ok (d', x, v', .gotVar r out bs) ∧
      ((inBuf c d key → d.buffered = none) → VTableM c lo lv K mn E d' v' l g') ∧ g'.es = g.es ∧ (g'.vmin = 0 ∨ E) ∧
      v.next ≤ v'.next ∧ g'.s.length ≤ g.s.length + c.vcap ∧ d'.next = d.next ∧ d'.min = d.min ∧ VSync v' ∧ VInv c E lv K g' v' ∧
      (match Spec.lookup (l.log.live d.min) key with
       | none => r = -1 ∧ out = none ∧ bs = none
       | some a => out = some a ∧ VarAns c g' key r bs) := by
  obtain ⟨d', v1, g', r, out, st, e, I, hes, hs1, T', q1, q2, q3, q4, q5, q6, q7⟩ := T.getVarCore hok hv hB hP h128 hk hs hr
  simp only [stepV]
  rw [e]
  simp only [Res.ok_bind]
  cases hl : Spec.lookup (l.log.live d.min) key with
  | none =>
    rw [hl] at q7
    obtain ⟨rfl, rfl, rfl⟩ := q7
    exact ⟨d', v1, g', _, _, _, rfl, T', q1, q2, q3, q4, q5, q6, hs1, I, rfl, rfl, rfl⟩
  | some a =>
    rw [hl] at q7
    obtain ⟨rfl, q7⟩ := q7
    obtain ⟨v', bs, r1, r2, r3, r4⟩ := q7.readAll hv I hes hs1
    rw [r1]
    exact ⟨d', v', g', _, _, _, rfl, fun h => (T' h).recache r2 r3, q1, q2, by rw [r2.next]; exact q3, q4, q5, q6, r3, I.recache r2 r3, rfl, r4⟩

/-- Without wrap-around the read cache is never stale. -/
theorem VInv.sync (hv : c.VFile) (I : VInv c E lv K g v) (h0 : g.vmin = 0) : VSync v := by
  intro ph hph
  obtain ⟨h1, h2⟩ := I.sim.cacheN ph hph
  have hb := I.base0 h0
  rcases I.sim.cache ph hph ph (by omega) h2 (Nat.mod_eq_of_lt h1) with h | h
  · exact h
  · omega

end

end EDB
