import Verif.Proofs.Scan
import Verif.Model.Client

/-! Helper lemmas: client histories. -/

namespace EDB

open Spec (Log Range Op Out)

section
variable {c : Cfg} {lo K a m : Nat} {L : Log}

theorem answer_of {rs : List Rec} {key : Nat} {code : Int} {out : Option (List Byte)} (h : Answer rs key code out) :
    Out.got code out = Spec.answer rs key := by
  unfold Spec.answer
  rcases h with ⟨v, h1, h2, h3⟩ | ⟨h1, h2, h3⟩
  · rw [h1, h2, h3]
  · rw [h1, h2, h3]

theorem collect_ok (hc : CmpOk c.cmpKey K) (hN : 0 < c.N) (x : Idx) : ∀ (f : Nat) (d : Data) (it : Iter),
    Sim c lo K a d L → KeysOk K it.range → it.qbm = none → d.min ≤ it.page →
    (rest L it.page it.slot).length < f →
    ∃ d' it', collect c f d x it = .ok (d', x, it', Spec.scan c.cmpData it.range (rest L it.page it.slot)) ∧
      SameButCache d d' ∧ Sim c lo K a d' L := by
  intro f
  induction f with
  | zero => intro d it _ _ _ _ h; omega
  | succ f ih =>
    intro d it S hq hb hmin hlen
    obtain ⟨d1, it1, out, e1, e2, e3, e4⟩ := next_ok hc hN x S hq hb hmin
    unfold collect
    rw [e1, Res.ok_bind]
    cases out with
    | none =>
      refine ⟨d1, it1, ?_, e2, e3⟩
      simp only
      unfold Spec.scan
      rw [List.filter_eq_nil_iff.mpr]
      intro y hy
      rw [(e4.done rfl).1 y hy]
      simp
    | some r =>
      obtain ⟨pre, p1, p2, p3⟩ := e4.found r rfl
      have hl : (rest L it1.page it1.slot).length < f := by
        rw [p1, List.length_append, List.length_cons] at hlen; omega
      obtain ⟨d2, it2, g1, g2, g3⟩ := ih d1 it1 e3 (by rw [e4.range]; exact hq) (by rw [e4.qbm]; exact hb)
        (by rw [e2.min]; have := e4.page; omega) hl
      have hpre : pre.filter (it.range.has c.cmpData) = [] :=
        List.filter_eq_nil_iff.mpr (by intro y hy; rw [p3 y hy]; simp)
      refine ⟨d2, it2, ?_, e2.trans g2, g3⟩
      simp only
      rw [g1, Res.ok_bind]
      simp only
      rw [p1, e4.range]
      unfold Spec.scan
      rw [List.filter_append, hpre, List.nil_append, List.filter_cons_of_pos p2]

theorem rest_length (C : Capped c.maxRec L) (m : Nat) : (rest L m 0).length ≤ (L.pages.length + 1) * c.maxRec := by
  rw [rest_zero]
  have hall : ∀ pg ∈ L.pages ++ [L.buf], pg.length ≤ c.maxRec := by
    intro pg h
    rcases List.mem_append.mp h with h | h
    · exact C.1 pg h
    · rw [List.mem_singleton.mp h]; exact C.2
  have key : ∀ ps : List (List Rec), (∀ pg ∈ ps, pg.length ≤ c.maxRec) → ps.flatten.length ≤ ps.length * c.maxRec := by
    intro ps
    induction ps with
    | nil => intro _; simp
    | cons p t ih =>
      intro h
      have h1 := h p (by simp)
      have h2 := ih (fun pg hpg => h pg (by simp [hpg]))
      rw [List.flatten_cons, List.length_append, List.length_cons, Nat.add_mul]
      omega
  refine (key _ (fun pg h => hall pg (List.mem_of_mem_drop h))).trans ?_
  apply Nat.mul_le_mul_right
  simp

/-- A complete scan. -/
theorem scanAll_ok (hc : CmpOk c.cmpKey K) (hN : 0 < c.N) {P : Nat} (hB : Bounds c lo K P) (hbs : c.binSearch = false)
    (hbm : c.useBmap = false) {d : Data} (S : Sim c lo K a d L) (hP : d.next ≤ P) (C : Capped c.maxRec L) (x : Idx)
    {q : Range} (hq : KeysOk K q) :
    ∃ d', scanAll c d x q = .ok (d', x, Spec.scan c.cmpData q (L.live d.min)) ∧ SameButCache d d' ∧
      Sim c lo K a d' L := by
  obtain ⟨it, i1, i2, i3, i4, i5, i6, i7⟩ := initIter_ok hc hB hbs hbm S hP hq
  have hlen := rest_length C it.page
  rw [← S.next] at hlen
  obtain ⟨d', it', g1, g2, g3⟩ := collect_ok hc hN x ((d.next + 1) * c.maxRec + 1) d it S (by rw [i2]; exact hq) i3 i5
    (by rw [i4]; omega)
  refine ⟨d', ?_, g2, g3⟩
  unfold scanAll
  rw [i1, Res.ok_bind, g1, Res.ok_bind, i2, i4, i7]

/-! ### The invariant of a table created empty -/

/-- State of a table that was started (new or recovered) with first retained page `m`: it represents `L` and has since
then dropped exactly the blocks it had to. -/
structure TableM (c : Cfg) (lo K m : Nat) (d : Data) (L : Log) : Prop where
  sim : Sim c lo K m d L
  room : Room c d
  cap : Capped c.maxRec L
  tight : d.min = m ∨ d.avail < c.B

/-- State of a table that was started new. -/
abbrev Table (c : Cfg) (lo K : Nat) (d : Data) (L : Log) : Prop := TableM c lo K 0 d L

theorem TableM.dropped_max {d : Data} (T : TableM c lo K m d L) (hB : 0 < c.B) (hm : c.B ∣ m) :
    d.min = max m (Spec.dropped c.N c.B L.pages.length) := by
  have hs := T.room.sum
  have hn := T.sim.next
  have ham := T.sim.amin
  obtain ⟨k, hk⟩ := T.room.dvd
  obtain ⟨j, hj⟩ := hm
  rw [← hn]
  unfold Spec.dropped
  rcases T.tight with h | h
  · split_ifs with h1
    · omega
    · have e : (d.next - c.N + c.B - 1) / c.B ≤ j := by
        rw [Nat.div_le_iff_le_mul hB, Nat.mul_comm, ← hj]
        omega
      have := Nat.mul_le_mul_left c.B e
      omega
  · rcases Nat.eq_zero_or_pos d.min with h0 | h0
    · rw [if_pos (show d.next ≤ c.N by omega)]; omega
    · have hk1 : 1 ≤ k := by
        rcases Nat.eq_zero_or_pos k with h1 | h1
        · rw [h1, Nat.mul_zero] at hk; omega
        · exact h1
      have : c.B * 1 ≤ c.B * k := Nat.mul_le_mul_left _ hk1
      rw [if_neg (show ¬ d.next ≤ c.N by omega)]
      have e : d.next - c.N + c.B - 1 = c.B * k + (c.B - 1 - d.avail) := by omega
      rw [e, Nat.mul_add_div hB, Nat.div_eq_of_lt (show c.B - 1 - d.avail < c.B by omega), Nat.add_zero]
      omega

theorem TableM.dropped {d : Data} (T : TableM c lo K 0 d L) (hB : 0 < c.B) :
    d.min = Spec.dropped c.N c.B L.pages.length := by
  rw [T.dropped_max hB (dvd_zero _), Nat.zero_max]

theorem TableM.congr {d d' : Data} (T : TableM c lo K m d L) (E : SameButCache d d') (S : Sim c lo K m d' L) :
    TableM c lo K m d' L :=
  ⟨S, T.room.congr E, T.cap, by rw [E.min, E.avail]; exact T.tight⟩

theorem fresh_table (hok : c.Ok K) (rb : Page) (sm : Nat → Nat × Nat) :
    Table c lo K (Data.fresh c rb sm) Log.empty := by
  refine ⟨⟨rfl, le_refl _, le_refl _, fun h => absurd h (Nat.lt_irrefl 0), by simp [Data.fresh], ?_, recs_init c, ?_, ?_, ?_, ?_, rfl, ?_, ?_⟩,
    ⟨dvd_zero _, ?_⟩, ⟨by simp [Log.empty], by simp [Log.empty]⟩, Or.inl rfl⟩
  · intro l _ h; simp [Log.empty] at h
  · intro pg h; simp [Log.empty] at h
  · simp [Log.all, Log.empty]
  · intro r h; simp [Log.all, Log.empty] at h
  · exact Spline.Inv.init _ _ _ _ _ hok.spl
  · intro ph h; simp [Data.fresh] at h
  · intro ph h; simp [Data.fresh] at h
  · simp [Data.fresh, hok.plain]

theorem tight_sealed (hB : 0 < c.B) {d : Data} (h : d.min = m ∨ d.avail < c.B) :
    (sealed c d).min = m ∨ (sealed c d).avail < c.B := by
  unfold sealed outData outMin
  simp only
  by_cases ha : d.avail = 0
  · right; rw [if_pos ha]; omega
  · rw [if_neg ha, if_neg ha]
    rcases h with h | h
    · left; exact h
    · right; omega

/-! ### One client operation -/

theorem TableM.put {d : Data} (hok : c.Ok K) (hs : m = 0 ∨ c.maxErr ≤ 1) {P : Nat} (hB : Bounds c lo K P) (T : TableM c lo K m d L) (hP : d.next + 1 ≤ P)
    (x : Idx) {key : Nat} {data : List Byte} (hd : data.length = c.dataSize) (hlo : lo ≤ key) (hk : key < K)
    (hgt : ∀ r ∈ L.all, r.1 < key) (hcache : L.buf.length ≥ c.maxRec → d.buffered ≠ some (d.next % c.N)) :
    ∃ d', (step c d x (.put key data) = .ok (d', x, .code 0) ∧ TableM c lo K m d' (L.put c.maxRec (key, data))) ∨
      (step c d x (.put key data) = .ok (d', x, .code 1) ∧ TableM c lo K m d' L ∧ SameButCache d d' ∧
        Spec.MayRefuse c.maxRec L) := by
  have hcount : pageCount d.wbuf = L.buf.length := by rw [← T.sim.buf, recs_length]
  obtain ⟨d', w, h | h⟩ := put_ok hok hB hs T.sim T.room T.cap hP 0 hd hlo hk hgt hcache
  · obtain ⟨h1, h2, h3, h4⟩ := h
    refine ⟨d', Or.inl ⟨?_, h2, h3, h4, ?_⟩⟩
    · simp only [step]; rw [h1, Res.ok_bind]
    · -- the accounting
      rw [putD_eq hok] at h1
      have E : SameButCache d (orderCheck c d key).1 := by
        unfold orderCheck
        simp only
        split_ifs
        · exact readPage_same _ _
        · exact SameButCache.refl d
        · exact SameButCache.refl d
      have t1 : (orderCheck c d key).1.min = m ∨ (orderCheck c d key).1.avail < c.B := by
        rw [E.min, E.avail]; exact T.tight
      split_ifs at h1
      · simp only [Res.ok.injEq, Prod.mk.injEq] at h1
        rw [← h1.1]
        unfold accepted
        simp only
        split_ifs
        · exact tight_sealed hok.B0 t1
        · exact t1
      · simp only [Res.ok.injEq, Prod.mk.injEq] at h1
        exact absurd h1.2.1 (by decide)
  · obtain ⟨h1, h2, h3, h4, h5, h6⟩ := h
    refine ⟨d', Or.inr ⟨?_, T.congr h4 h2, h4, h5, h6⟩⟩
    simp only [step]; rw [h1, Res.ok_bind]

theorem TableM.flush {d : Data} (hok : c.Ok K) (hs : m = 0 ∨ c.maxErr ≤ 1) {P : Nat} (hB : Bounds c lo K P) (T : TableM c lo K m d L) (hP : d.next + 1 ≤ P)
    (x : Idx) (hcache : L.buf ≠ [] → d.buffered ≠ some (d.next % c.N)) :
    ∃ d', step c d x .flush = .ok (d', x, .code 0) ∧ TableM c lo K m d' L.flush := by
  obtain ⟨d', w, h1, h2, h3, h4, h5⟩ := flush_ok hok hB hs T.sim T.room T.cap hP hcache
  refine ⟨d', ?_, h2, h3, h4, ?_⟩
  · simp only [step]; rw [h1, Res.ok_bind]
  · rw [h5]
    split_ifs
    · exact T.tight
    · exact tight_sealed hok.B0 T.tight

theorem TableM.get {d : Data} (hok : c.Ok K) {P : Nat} (hB : Bounds c lo K P) (T : TableM c lo K m d L) (hP : d.next ≤ P)
    (x : Idx) (h255 : c.maxRec ≤ 255) {key : Nat} (hk : key < K) :
    ∃ d', step c d x (.get key) = .ok (d', x, Spec.answer (L.live d.min) key) ∧
      TableM c lo K m d' L := by
  obtain ⟨d', code, out, h1, h2, h3, h4⟩ := get_ok hok.cmp hok.N0 hB hok.spline hk T.sim hP (by
    intro i hi
    have := T.cap.2
    omega)
  refine ⟨d', ?_, T.congr h2 h3⟩
  rw [← answer_of h4]
  simp only [step]; rw [h1, Res.ok_bind]

theorem TableM.scan {d : Data} (hok : c.Ok K) {P : Nat} (hB : Bounds c lo K P) (T : TableM c lo K m d L) (hP : d.next ≤ P)
    (x : Idx) (hbm : c.useBmap = false) {q : Range} (hq : KeysOk K q) :
    ∃ d', step c d x (.scan q) =
        .ok (d', x, .rows (Spec.scan c.cmpData q (L.live d.min))) ∧
      TableM c lo K m d' L := by
  obtain ⟨d', h1, h2, h3⟩ := scanAll_ok hok.cmp hok.N0 hB hok.spline hbm T.sim hP T.cap x hq
  refine ⟨d', ?_, T.congr h2 h3⟩
  simp only [step]; rw [h1, Res.ok_bind]

/-! ### Histories -/

/-- A client that plays by the rules: keys offered in ascending order, keys and data of the right size, bounds within
the comparator's domain, scans only on tables without bitmap index. -/
structure Client (c : Cfg) (lo K : Nat) (ops : List Op) : Prop where
  asc : (Spec.offered ops).Pairwise (· < ·)
  put : ∀ k v, Op.put k v ∈ ops → lo ≤ k ∧ k < K ∧ v.length = c.dataSize
  get : ∀ k, Op.get k ∈ ops → k < K
  scan : ∀ q, Op.scan q ∈ ops → KeysOk K q ∧ c.useBmap = false

theorem Client.tail {op : Op} {ops : List Op} (h : Client c lo K (op :: ops)) : Client c lo K ops where
  asc := by
    have := h.asc
    cases op with
    | put k v => exact (List.pairwise_cons.mp this).2
    | flush => exact this
    | get k => exact this
    | scan q => exact this
  put k v hm := h.put k v (List.mem_cons_of_mem _ hm)
  get k hm := h.get k (List.mem_cons_of_mem _ hm)
  scan q hm := h.scan q (List.mem_cons_of_mem _ hm)

/-- Does the operation complete a page? -/
def completes (c : Cfg) (d : Data) : Op → Prop
  | .put _ _ => pageCount d.wbuf ≥ c.maxRec
  | .flush => pageCount d.wbuf ≠ 0
  | _ => False

/-- The log after an operation that is not refused. -/
def after (cap : Nat) (L : Log) : Op → Log
  | .put k v => L.put cap (k, v)
  | .flush => L.flush
  | _ => L

theorem Log_put_all (cap : Nat) (r : Rec) : (L.put cap r).all = L.all ++ [r] := by
  unfold Log.put Log.all
  split_ifs <;> simp

theorem Log_flush_all : L.flush.all = L.all := by
  unfold Log.flush
  split_ifs with h
  · rfl
  · unfold Log.all; simp

theorem Log_put_pages (cap : Nat) (r : Rec) : (L.put cap r).pages.length ≤ L.pages.length + 1 := by
  unfold Log.put
  split_ifs <;> simp

theorem Log_flush_pages : L.flush.pages.length ≤ L.pages.length + 1 := by
  unfold Log.flush
  split_ifs <;> simp

/-- Every history in which no page is overwritten while it sits in the read cache. -/
theorem history_ok (hok : c.Ok K) (hs : m = 0 ∨ c.maxErr ≤ 1) (hm : c.B ∣ m) {P : Nat} (hB : Bounds c lo K P) (h255 : c.maxRec ≤ 255)
    {limit : Log → Prop} {kept : Log → List Rec}
    (hkept : ∀ l, limit l → kept l = l.live (max m (Spec.dropped c.N c.B l.pages.length)))
    {G : Data → Idx → List Op → Prop}
    (hG : ∀ d L x op ops, G d x (op :: ops) → TableM c lo K m d L → limit (after c.maxRec L op) → completes c d op →
      d.buffered ≠ some (d.next % c.N))
    (hG' : ∀ d L x op ops d' x' o, G d x (op :: ops) → TableM c lo K m d L → Client c lo K (op :: ops) →
      step c d x op = .ok (d', x', o) → G d' x' ops) :
    ∀ (ops : List Op) (d : Data) (x : Idx) (L : Log), TableM c lo K m d L → limit L → d.next + ops.length ≤ P →
      Client c lo K ops → (∀ r ∈ L.all, ∀ k ∈ Spec.offered ops, r.1 < k) → G d x ops →
      Spec.Run limit kept c.maxRec c.cmpData L (history c d x ops) := by
  intro ops
  induction ops with
  | nil => intro d x L _ _ _ _ _ _; exact trivial
  | cons op ops ih =>
    intro d x L T hlim hP C hgt g
    rw [List.length_cons] at hP
    have hcount : pageCount d.wbuf = L.buf.length := by rw [← T.sim.buf, recs_length]
    have hnext := T.sim.next
    cases op with
    | put k v =>
      obtain ⟨h1, h2, h3⟩ := C.put k v (by simp)
      have hgt' : ∀ r ∈ L.all, r.1 < k := fun r hr => hgt r hr k (by simp [Spec.offered])
      have hasc := List.pairwise_cons.mp C.asc
      unfold history
      by_cases hl : limit (L.put c.maxRec (k, v))
      · obtain ⟨d', ⟨e, T'⟩ | ⟨e, T', E, hr⟩⟩ := T.put hok hs hB (by omega) x h3 h1 h2 hgt' (by
          intro hf
          exact hG d L x _ _ g T hl (by unfold completes; omega))
        · simp only [e]
          intro _
          left
          refine ⟨rfl, ih d' x _ T' hl ?_ C.tail ?_ (hG' _ _ _ _ _ _ _ _ g T C e)⟩
          · have := Log_put_pages (L := L) c.maxRec (k, v)
            have := T'.sim.next
            omega
          · intro r hr k' hk'
            rw [Log_put_all] at hr
            rcases List.mem_append.mp hr with h | h
            · exact hgt r h k' (by simp [Spec.offered, hk'])
            · rw [List.mem_singleton.mp h]; exact hasc.1 k' hk'
        · simp only [e]
          intro _
          right
          refine ⟨rfl, hr, ih d' x _ T' hlim ?_ C.tail ?_ (hG' _ _ _ _ _ _ _ _ g T C e)⟩
          · rw [E.next]; omega
          · intro r hr k' hk'
            exact hgt r hr k' (by simp [Spec.offered, hk'])
      · cases step c d x (Op.put k v) <;> exact fun h => absurd h hl
    | flush =>
      unfold history
      by_cases hl : limit L.flush
      · obtain ⟨d', e, T'⟩ := T.flush hok hs hB (by omega) x (by
          intro hf
          refine hG d L x _ _ g T hl ?_
          unfold completes
          rw [hcount]
          intro h0
          exact hf (List.length_eq_zero_iff.mp h0))
        simp only [e]
        intro _
        refine ⟨rfl, ih d' x _ T' hl ?_ C.tail ?_ (hG' _ _ _ _ _ _ _ _ g T C e)⟩
        · have := Log_flush_pages (L := L)
          have := T'.sim.next
          omega
        · intro r hr k' hk'
          rw [Log_flush_all] at hr
          exact hgt r hr k' hk'
      · cases step c d x Op.flush <;> exact fun h => absurd h hl
    | get k =>
      have hk := C.get k (by simp)
      obtain ⟨d', e, T'⟩ := T.get hok hB (by omega) x h255 hk
      unfold history
      simp only [e]
      refine ⟨by rw [hkept L hlim, T.dropped_max hok.B0 hm], ih d' x _ T' hlim ?_ C.tail hgt (hG' _ _ _ _ _ _ _ _ g T C e)⟩
      have := T'.sim.next
      omega
    | scan q =>
      obtain ⟨hq, hbm⟩ := C.scan q (by simp)
      obtain ⟨d', e, T'⟩ := T.scan hok hB (by omega) x hbm hq
      unfold history
      simp only [e]
      refine ⟨by rw [hkept L hlim, T.dropped_max hok.B0 hm], ih d' x _ T' hlim ?_ C.tail hgt (hG' _ _ _ _ _ _ _ _ g T C e)⟩
      have := T'.sim.next
      omega

/-- The state reached by such a history represents the log the observations describe. -/
theorem runOps_ok (hok : c.Ok K) (hs : m = 0 ∨ c.maxErr ≤ 1) {P : Nat} (hB : Bounds c lo K P) (h255 : c.maxRec ≤ 255)
    {G : Data → Idx → List Op → Prop}
    (hG : ∀ d L x op ops, G d x (op :: ops) → TableM c lo K m d L → completes c d op → d.buffered ≠ some (d.next % c.N))
    (hG' : ∀ d L x op ops d' x' o, G d x (op :: ops) → TableM c lo K m d L → Client c lo K (op :: ops) →
      step c d x op = .ok (d', x', o) → G d' x' ops) :
    ∀ (ops : List Op) (d : Data) (x : Idx) (L : Log), TableM c lo K m d L → d.next + ops.length ≤ P →
      Client c lo K ops → (∀ r ∈ L.all, ∀ k ∈ Spec.offered ops, r.1 < k) → G d x ops →
      ∃ d', runOps c d x ops = .ok (d', x) ∧
        TableM c lo K m d' (Spec.logAfter c.maxRec L (history c d x ops)) ∧ d'.next ≤ d.next + ops.length ∧ G d' x [] := by
  intro ops
  induction ops with
  | nil => intro d x L T _ _ _ g; exact ⟨d, rfl, T, le_refl _, g⟩
  | cons op ops ih =>
    intro d x L T hP C hgt g
    rw [List.length_cons] at hP
    have hcount : pageCount d.wbuf = L.buf.length := by rw [← T.sim.buf, recs_length]
    have hnext := T.sim.next
    cases op with
    | put k v =>
      obtain ⟨h1, h2, h3⟩ := C.put k v (by simp)
      have hgt' : ∀ r ∈ L.all, r.1 < k := fun r hr => hgt r hr k (by simp [Spec.offered])
      have hasc := List.pairwise_cons.mp C.asc
      unfold history runOps
      obtain ⟨d', ⟨e, T'⟩ | ⟨e, T', E, hr⟩⟩ := T.put hok hs hB (by omega) x h3 h1 h2 hgt' (by
          intro hf
          exact hG d L x _ _ g T (by unfold completes; omega))
      · have := Log_put_pages (L := L) c.maxRec (k, v)
        have := T'.sim.next
        obtain ⟨d2, f1, f2, f3, f4⟩ := ih d' x _ T' (by omega) C.tail (by
          intro r hr k' hk'
          rw [Log_put_all] at hr
          rcases List.mem_append.mp hr with h | h
          · exact hgt r h k' (by simp [Spec.offered, hk'])
          · rw [List.mem_singleton.mp h]; exact hasc.1 k' hk') (hG' _ _ _ _ _ _ _ _ g T C e)
        simp only [e, Res.ok_bind, Spec.logAfter, List.length_cons]
        exact ⟨d2, f1, f2, by omega, f4⟩
      · have hn := E.next
        obtain ⟨d2, f1, f2, f3, f4⟩ := ih d' x _ T' (by omega) C.tail (by
          intro r hr k' hk'
          exact hgt r hr k' (by simp [Spec.offered, hk'])) (hG' _ _ _ _ _ _ _ _ g T C e)
        simp only [e, Res.ok_bind, List.length_cons]
        refine ⟨d2, f1, ?_, by omega, f4⟩
        simpa [Spec.logAfter] using f2
    | flush =>
      unfold history runOps
      obtain ⟨d', e, T'⟩ := T.flush hok hs hB (by omega) x (by
          intro hf
          refine hG d L x _ _ g T ?_
          unfold completes
          rw [hcount]
          intro h0
          exact hf (List.length_eq_zero_iff.mp h0))
      have := Log_flush_pages (L := L)
      have := T'.sim.next
      obtain ⟨d2, f1, f2, f3, f4⟩ := ih d' x _ T' (by omega) C.tail (by
        intro r hr k' hk'
        rw [Log_flush_all] at hr
        exact hgt r hr k' hk') (hG' _ _ _ _ _ _ _ _ g T C e)
      simp only [e, Res.ok_bind, Spec.logAfter, List.length_cons]
      exact ⟨d2, f1, f2, by omega, f4⟩
    | get k =>
      have hk := C.get k (by simp)
      obtain ⟨d', e, T'⟩ := T.get hok hB (by omega) x h255 hk
      have := T'.sim.next
      obtain ⟨d2, f1, f2, f3, f4⟩ := ih d' x _ T' (by omega) C.tail hgt (hG' _ _ _ _ _ _ _ _ g T C e)
      unfold history runOps
      simp only [e, Res.ok_bind, Spec.logAfter, List.length_cons]
      exact ⟨d2, f1, f2, by omega, f4⟩
    | scan q =>
      obtain ⟨hq, hbm⟩ := C.scan q (by simp)
      obtain ⟨d', e, T'⟩ := T.scan hok hB (by omega) x hbm hq
      have := T'.sim.next
      obtain ⟨d2, f1, f2, f3, f4⟩ := ih d' x _ T' (by omega) C.tail hgt (hG' _ _ _ _ _ _ _ _ g T C e)
      unfold history runOps
      simp only [e, Res.ok_bind, Spec.logAfter, List.length_cons]
      exact ⟨d2, f1, f2, by omega, f4⟩

/-! ### When is the read cache safe? -/

/-- Along the run, no page is completed while the storage page it overwrites is the one in the read cache. -/
def NoStale (c : Cfg) : Data → Idx → List Op → Prop
  | _, _, [] => True
  | d, x, op :: ops => (completes c d op → d.buffered ≠ some (d.next % c.N)) ∧
    ∀ d' x' o, step c d x op = .ok (d', x', o) → NoStale c d' x' ops

end

end EDB
