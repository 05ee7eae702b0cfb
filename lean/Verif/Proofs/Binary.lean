import Verif.Proofs.Bisect
import Verif.Proofs.DemoOk

/-! Helper lemmas: tables in binary-search mode.  Such a table never touches its spline, so it is compared with the same
table in spline mode, whose spline is only imagined. -/

namespace EDB

open Spec (Log Range Op Out)

/-- The same table in spline mode. -/
def plainOf (c : Cfg) : Cfg := { c with binSearch := false }

/-- The state with another spline. -/
def withSpl (d : Data) (s : Spline) : Data := { d with spl := s }

/-- Does the operation reclaim a block with `cleanSpline`? -/
def cleans (c : Cfg) (d : Data) : Prop := d.avail = 0 ∧ c.noClean = false

instance (c : Cfg) (d : Data) : Decidable (cleans c d) := inferInstanceAs (Decidable (_ ∧ _))

section
variable {c : Cfg} {lo K a m : Nat} {L : Log}

theorem Sim.unplain {d : Data} (S : Sim (plainOf c) lo K a d L) : Sim c lo K a d L :=
  ⟨S.next, S.amin, S.minle, S.live, S.window, S.stored, S.buf, S.full, S.sorted, S.bound, S.spl, S.err, S.cacheN, S.cache⟩

/-- A page write in binary-search mode needs the (unallocated) spline exactly when a block is reclaimed. -/
theorem writePage_bin (hio : ∀ n, c.ioOk n = true) (hbs : c.binSearch = true) (d : Data) :
    writePage c d = if cleans c d then .ub else .ok ({ outData c d with spl := d.spl }, some d.next) := by
  unfold writePage
  simp only
  by_cases ha : d.avail = 0
  · rw [if_pos ha]
    simp only [Dev.erase, hio, if_true]
    unfold cleanStep
    by_cases hc : c.noClean = true
    · simp only [hc, if_true, Res.ok_bind, Dev.write, hio]
      simp [outData, outDev, outMin, outPage, ha, hc, cleans]
    · have hc' : c.noClean = false := by simpa using hc
      simp [hc', hbs, ha, cleans]
  · rw [if_neg ha]
    simp only [Dev.write, hio, if_true]
    simp [outData, outDev, outMin, outPage, ha, cleans]

theorem withSpl_sealed (d : Data) (s : Spline) :
    withSpl (sealed (plainOf c) (withSpl d s)) d.spl = { sealed c d with spl := d.spl } := rfl

theorem putPage_bin (hio : ∀ n, c.ioOk n = true) (hbs : c.binSearch = true) (d : Data) (s : Spline) :
    putPage c d = if cleans c d then .ub else .ok (withSpl (sealed (plainOf c) (withSpl d s)) d.spl) := by
  unfold putPage
  rw [writePage_bin hio hbs, withSpl_sealed]
  by_cases h : cleans c d
  · rw [if_pos h, if_pos h]; rfl
  · rw [if_neg h, if_neg h, Res.ok_bind]
    simp only [indexPage, hbs, if_true]
    rfl

theorem flushD_bin (hio : ∀ n, c.ioOk n = true) (hbs : c.binSearch = true) (d : Data) (s : Spline) :
    flushD c d = if pageCount d.wbuf < 1 then .ok (d, 0, false) else
      if cleans c d then .ub else .ok (withSpl (sealed (plainOf c) (withSpl d s)) d.spl, 0, true) := by
  unfold flushD
  rw [withSpl_sealed]
  split_ifs with h h1
  · rfl
  · rw [writePage_bin hio hbs, if_pos h1]; rfl
  · rw [writePage_bin hio hbs, if_neg h1, Res.ok_bind]
    simp only [indexPage, hbs, if_true]
    rfl

theorem readPage_withSpl (d : Data) (s : Spline) (p : Nat) :
    readPage (withSpl d s) p = (withSpl (readPage d p).1 s, (readPage d p).2) := by
  unfold readPage withSpl
  simp only
  split_ifs
  · rfl
  · split <;> rfl

theorem orderCheck_withSpl (d : Data) (s : Spline) (key : Nat) :
    orderCheck (plainOf c) (withSpl d s) key = (withSpl (orderCheck c d key).1 s, (orderCheck c d key).2) := by
  by_cases h1 : d.next > 0 ∨ pageCount d.wbuf > 0
  · by_cases h2 : pageCount d.wbuf = 0
    · have e1 : orderCheck c d key = ((readPage d ((d.next - 1) % c.N)).1,
          decide (c.cmpKey key (slotKey c (readPage d ((d.next - 1) % c.N)).1.rbuf (c.maxRec - 1)) = 1)) := by
        unfold orderCheck; simp only; rw [if_pos h1, if_pos h2]
      have e2 : orderCheck (plainOf c) (withSpl d s) key = ((readPage (withSpl d s) ((d.next - 1) % c.N)).1,
          decide (c.cmpKey key (slotKey c (readPage (withSpl d s) ((d.next - 1) % c.N)).1.rbuf (c.maxRec - 1)) = 1)) := by
        have h1' : (withSpl d s).next > 0 ∨ pageCount (withSpl d s).wbuf > 0 := h1
        have h2' : pageCount (withSpl d s).wbuf = 0 := h2
        unfold orderCheck; simp only; rw [if_pos h1', if_pos h2']; rfl
      rw [e1, e2, readPage_withSpl]
      rfl
    · have h1' : (withSpl d s).next > 0 ∨ pageCount (withSpl d s).wbuf > 0 := h1
      have h2' : ¬ pageCount (withSpl d s).wbuf = 0 := h2
      unfold orderCheck; simp only; rw [if_pos h1, if_neg h2, if_pos h1', if_neg h2']; rfl
  · have h1' : ¬ ((withSpl d s).next > 0 ∨ pageCount (withSpl d s).wbuf > 0) := h1
    unfold orderCheck; simp only; rw [if_neg h1, if_neg h1']

/-- An insert in binary-search mode does what it does in spline mode, or uses the unallocated spline. -/
theorem putD_bin (hok : (plainOf c).Ok K) (hbs : c.binSearch = true) (d : Data) (s : Spline) (key : Nat)
    (data : List Byte) (loc : Nat) :
    (putD c d key data loc = .ub ∧ pageCount d.wbuf ≥ c.maxRec ∧ cleans c d) ∨
    (¬ (pageCount d.wbuf ≥ c.maxRec ∧ (orderCheck c d key).2 = true ∧ cleans c d) ∧
      ∃ d' r w, putD (plainOf c) (withSpl d s) key data loc = .ok (d', r, w) ∧
        putD c d key data loc = .ok (withSpl d' d.spl, r, w)) := by
  rw [putD_eq hok, orderCheck_withSpl]
  have E := orderCheck_same (c := c) d key
  unfold putD
  obtain ⟨d1, b, h⟩ : ∃ d1 b, orderCheck c d key = (d1, b) := ⟨_, _, rfl⟩
  rw [h] at E
  rw [h]
  simp only at E
  simp only
  cases b with
  | false =>
    right
    refine ⟨by simp, _, _, _, by simp; exact ⟨rfl, rfl, rfl⟩, ?_⟩
    simp only [withSpl]
    rw [← E.spl]
    simp
  | true =>
    simp only [if_true]
    have fin : ∀ (X : Data) (w : Bool), finishPut c X w key data loc =
        .ok ({ X with wbuf := appendRec c X.wbuf key data loc }, 0, w) := by
      intro X w
      have hr : c.rlc = false := hok.plain
      unfold finishPut
      simp only [hr, Bool.false_eq_true, if_false]
    have hcl : cleans c d1 ↔ cleans c d := by unfold cleans; rw [E.avail]
    by_cases hf : pageCount d1.wbuf ≥ c.maxRec
    · rw [if_pos hf, putPage_bin (c := c) hok.io hbs d1 s]
      by_cases hx : cleans c d1
      · left
        rw [if_pos hx, Res.ub_bind]
        exact ⟨rfl, by rw [← E.wbuf]; exact hf, hcl.mp hx⟩
      · right
        rw [if_neg hx, Res.ok_bind]
        refine ⟨fun h => hx (hcl.mpr h.2.2), _, _, _, rfl, ?_⟩
        rw [fin]
        have hf' : pageCount (withSpl d1 s).wbuf ≥ (plainOf c).maxRec := hf
        unfold accepted
        rw [if_pos hf', decide_eq_true hf', ← E.spl]
        rfl
    · right
      rw [if_neg hf]
      refine ⟨fun h => hf (by rw [E.wbuf]; exact h.1), _, _, _, rfl, ?_⟩
      rw [fin]
      have hf' : ¬ pageCount (withSpl d1 s).wbuf ≥ (plainOf c).maxRec := hf
      unfold accepted
      rw [if_neg hf', decide_eq_false hf', ← E.spl]
      rfl

/-- State of a table in binary-search mode that represents `L`. -/
structure BinTable (c : Cfg) (lo K : Nat) (d : Data) (L : Log) : Prop where
  table : ∃ s, Table (plainOf c) lo K (withSpl d s) L
  blank : Unwritten c d

theorem BinTable.sim {d : Data} (T : BinTable c lo K d L) : ∃ s, Sim c lo K 0 (withSpl d s) L :=
  let ⟨s, h⟩ := T.table
  ⟨s, h.sim.unplain⟩

theorem BinTable.fresh (hok : (plainOf c).Ok K) (rb : Page) (sm : Nat → Nat × Nat) :
    BinTable c lo K (Data.fresh c rb sm) Log.empty :=
  ⟨⟨_, fresh_table hok rb sm⟩, fun _ _ _ _ => rfl⟩

theorem Unwritten.sealed {d : Data} (_hB : c.B ≠ 0) (R : Room c d) (h : Unwritten c d) :
    Unwritten c (EDB.sealed c d) := by
  intro hm i h1 h2
  have hs := R.sum
  simp only [EDB.sealed, outData, outMin, outDev] at *
  by_cases ha : d.avail = 0
  · rw [if_pos ha] at hm; omega
  · rw [if_neg ha] at hm
    have : d.next % c.N = d.next := Nat.mod_eq_of_lt (by omega)
    rw [this, if_neg (by omega), if_neg (fun h => ha h.1)]
    exact h hm i (by omega) h2

theorem Unwritten.accepted {d : Data} (hok : c.B ≠ 0) (R : Room c d) (h : Unwritten c d) (key : Nat) (data : List Byte)
    (loc : Nat) : Unwritten c (EDB.accepted c d key data loc) := by
  unfold EDB.accepted
  simp only
  split_ifs
  · exact Unwritten.sealed hok R h
  · exact h

theorem BinTable.put (hok : (plainOf c).Ok K) (hbs : c.binSearch = true) {P : Nat} (hB : Bounds c lo K P) {d : Data}
    (T : BinTable c lo K d L) (hP : d.next + 1 ≤ P) (x : Idx) {key : Nat} {data : List Byte}
    (hd : data.length = c.dataSize) (hlo : lo ≤ key) (hk : key < K) (hgt : ∀ r ∈ L.all, r.1 < key)
    (hcache : L.buf.length ≥ c.maxRec → d.buffered ≠ some (d.next % c.N)) :
    (step c d x (.put key data) = .ub ∧ L.buf.length ≥ c.maxRec ∧ cleans c d) ∨
    (¬ (L.buf.length ≥ c.maxRec ∧ cleans c d) ∧ ∃ d',
      (step c d x (.put key data) = .ok (d', x, .code 0) ∧ BinTable c lo K d' (L.put c.maxRec (key, data))) ∨
      (step c d x (.put key data) = .ok (d', x, .code 1) ∧ BinTable c lo K d' L ∧ SameButCache d d' ∧
        Spec.MayRefuse c.maxRec L)) := by
  obtain ⟨s, Ts⟩ := T.table
  have hB' : Bounds (plainOf c) lo K P := ⟨hB.prod, hB.pages, hB.key⟩
  have hcount : pageCount d.wbuf = L.buf.length := by rw [← recs_length (c := c), ← Ts.sim.buf]; rfl
  have hput := Ts.put hok (Or.inl rfl) hB' hP x hd hlo hk hgt hcache
  rcases putD_bin hok hbs d s key data 0 with ⟨e, h1, h2⟩ | ⟨hno, d', r, w, e1, e2⟩
  · left
    refine ⟨?_, by omega, h2⟩
    simp only [step]; rw [e, Res.ub_bind]
  · have es : step (plainOf c) (withSpl d s) x (.put key data) = .ok (d', x, .code r) := by
      simp only [step]; rw [e1, Res.ok_bind]
    have eb : step c d x (.put key data) = .ok (withSpl d' d.spl, x, .code r) := by
      simp only [step]; rw [e2, Res.ok_bind]
    have hu : Unwritten c (withSpl d' d.spl) := by
      have hu0 : Unwritten (plainOf c) (withSpl d s) := T.blank
      have E := orderCheck_same (c := plainOf c) (withSpl d s) key
      have hu1 : Unwritten (plainOf c) (orderCheck (plainOf c) (withSpl d s) key).1 := by
        intro hm i; rw [E.next, E.dev]; rw [E.min] at hm; exact hu0 hm i
      have R1 := Ts.room.congr E
      rw [putD_eq hok] at e1
      split_ifs at e1
      · cases e1
        exact hu1.accepted (by have := hok.B0; omega) R1 key data 0
      · cases e1
        exact hu1
    right
    refine ⟨?_, ?_⟩
    · rintro ⟨h1, h2⟩
      refine hno ⟨by omega, ?_, h2⟩
      have hb : L.buf ≠ [] := by
        intro h; rw [h, List.length_nil] at h1
        have : 0 < c.maxRec := hok.cap
        omega
      have := orderCheck_buf hok.cmp Ts.sim hk hb
      rw [orderCheck_withSpl] at this
      have := congrArg Prod.snd this
      simp only at this
      rw [this]
      exact decide_eq_true hgt
    · refine ⟨withSpl d' d.spl, ?_⟩
      rw [es] at hput
      obtain ⟨d2, ⟨h1, h2⟩ | ⟨h1, h2, h3, h4⟩⟩ := hput
      · simp only [Res.ok.injEq, Prod.mk.injEq, true_and, Out.code.injEq] at h1
        obtain ⟨rfl, rfl⟩ := h1
        exact Or.inl ⟨eb, ⟨d'.spl, h2⟩, hu⟩
      · simp only [Res.ok.injEq, Prod.mk.injEq, true_and, Out.code.injEq] at h1
        obtain ⟨rfl, rfl⟩ := h1
        exact Or.inr ⟨eb, ⟨⟨d'.spl, h2⟩, hu⟩, ⟨h3.dev, h3.wbuf, h3.next, h3.min, h3.avail, rfl, h3.rlcNext, h3.rlcStart⟩, h4⟩

theorem BinTable.flush (hok : (plainOf c).Ok K) (hbs : c.binSearch = true) {P : Nat} (hB : Bounds c lo K P) {d : Data}
    (T : BinTable c lo K d L) (hP : d.next + 1 ≤ P) (x : Idx) (hcache : L.buf ≠ [] → d.buffered ≠ some (d.next % c.N)) :
    (step c d x .flush = .ub ∧ L.buf ≠ [] ∧ cleans c d) ∨
    (¬ (L.buf ≠ [] ∧ cleans c d) ∧
      ∃ d', step c d x .flush = .ok (d', x, .code 0) ∧ BinTable c lo K d' L.flush) := by
  obtain ⟨s, Ts⟩ := T.table
  have hB' : Bounds (plainOf c) lo K P := ⟨hB.prod, hB.pages, hB.key⟩
  have hcount : pageCount d.wbuf = L.buf.length := by rw [← recs_length (c := c), ← Ts.sim.buf]; rfl
  obtain ⟨d2, w, f1, f2, f3, f4, f5⟩ := flush_ok hok hB' (Or.inl rfl) Ts.sim Ts.room Ts.cap hP hcache
  have hfl := Ts.flush hok (Or.inl rfl) hB' hP x hcache
  have eb := flushD_bin (c := c) hok.io hbs d s
  by_cases hb : L.buf = []
  · right
    refine ⟨fun h => h.1 hb, d, ?_, ?_⟩
    · simp only [step]
      rw [eb, if_pos (by rw [hcount, hb]; decide), Res.ok_bind]
    · have : L.flush = L := by unfold Log.flush; rw [if_pos hb]
      rw [this]
      exact T
  · have hpos : ¬ pageCount d.wbuf < 1 := by
      have := List.length_pos_iff.mpr hb
      omega
    rw [if_neg hpos] at eb
    by_cases hcl : cleans c d
    · left
      refine ⟨?_, hb, hcl⟩
      simp only [step]
      rw [eb, if_pos hcl, Res.ub_bind]
    · right
      rw [if_neg hcl] at eb
      refine ⟨fun h => hcl h.2, withSpl (sealed (plainOf c) (withSpl d s)) d.spl, ?_, ?_, ?_⟩
      · simp only [step]
        rw [eb, Res.ok_bind]
      · rw [if_neg hb] at f5
        obtain ⟨d3, g1, g2⟩ := hfl
        simp only [step] at g1
        rw [f1, Res.ok_bind] at g1
        simp only [Res.ok.injEq, Prod.mk.injEq, and_true] at g1
        rw [← g1, f5] at g2
        exact ⟨_, g2⟩
      · exact Unwritten.sealed (c := c) (d := d) (by have := hok.B0; intro h; exact absurd h (Nat.ne_of_gt this)) ⟨Ts.room.dvd, Ts.room.sum⟩ T.blank

theorem binLoop_withSpl {key : Nat} (s : Spline) : ∀ (f : Nat) (d : Data) (p l h : Nat),
    binSearchLoop c key f (withSpl d s) p l h =
      binSearchLoop c key f d p l h >>= fun y => .ok (withSpl y.1 s, y.2) := by
  intro f
  induction f with
  | zero => intro d p l h; rfl
  | succ f ih =>
    intro d p l h
    unfold binSearchLoop
    rw [readPage_withSpl]
    obtain ⟨d1, r, hr⟩ : ∃ d1 r, readPage d (h % c.N) = (d1, r) := ⟨_, _, rfl⟩
    rw [hr]
    cases r with
    | false => rfl
    | true =>
      simp only [if_true]
      have e1 : (withSpl d1 s).rbuf = d1.rbuf := rfl
      rw [e1]
      split_ifs
      · rfl
      · exact ih _ _ _ _
      · exact ih _ _ _ _
      · rfl

theorem get_withSpl (hbs : c.binSearch = true) (d : Data) (s : Spline) (key : Nat) :
    get c (withSpl d s) key = get c d key >>= fun y => .ok (withSpl y.1 s, y.2) := by
  have stored : getStored c (withSpl d s) key = getStored c d key >>= fun y => .ok (withSpl y.1 s, y.2) := by
    unfold getStored
    rw [if_pos hbs, if_pos hbs]
    unfold binPageSearch
    have e : (withSpl d s).min = d.min ∧ (withSpl d s).next = d.next := ⟨rfl, rfl⟩
    rw [e.1, e.2, binLoop_withSpl]
    cases binSearchLoop c key 80 d d.min (d.next - 1) ((d.min + (d.next - 1)) % 2 ^ 32 / 2) with
    | ub => rfl
    | fuel => rfl
    | ok y =>
      obtain ⟨d1, b⟩ := y
      cases b with
      | false => rfl
      | true =>
        simp only [Res.ok_bind, if_true]
        have e1 : (withSpl d1 s).rbuf = d1.rbuf := rfl
        rw [e1]
        cases searchNode c d1.rbuf key with
        | ub => rfl
        | fuel => rfl
        | ok r => cases r <;> rfl
  have e1 : (withSpl d s).next = d.next := rfl
  have e2 : (withSpl d s).wbuf = d.wbuf := rfl
  unfold EDB.get
  rw [e1, e2]
  split_ifs
  · cases searchBuffer c d.wbuf key <;> rfl
  · rfl
  · cases searchBuffer c d.wbuf key <;> rfl
  · exact stored
  · exact stored

theorem BinTable.get (hok : (plainOf c).Ok K) (hbs : c.binSearch = true) {d : Data}
    (T : BinTable c lo K d L) (h31 : d.next ≤ 2 ^ 31) (h255 : c.maxRec ≤ 255) (x : Idx) {key : Nat} (hk : key < K) :
    step c d x (.get key) = .ub ∨
    ∃ d', step c d x (.get key) = .ok (d', x, Spec.answer (L.live d.min) key) ∧ BinTable c lo K d' L ∧
      SameButCache d d' := by
  obtain ⟨s, Ts⟩ := T.table
  have h := get_bin (c := c) hok.cmp hok.N0 hbs hk Ts.sim.unplain T.blank h31 (by
    intro i hi
    have : L.buf.length ≤ c.maxRec := Ts.cap.2
    omega)
  rw [get_withSpl hbs] at h
  cases e : EDB.get c d key with
  | ub =>
    left
    simp only [step]; rw [e, Res.ub_bind]
  | fuel =>
    rw [e] at h
    rcases h with ⟨_, _, _, h, -⟩ | h <;> cases h
  | ok y =>
    obtain ⟨d1, code, out⟩ := y
    rw [e, Res.ok_bind] at h
    rcases h with ⟨d', code', out', h1, h2, h3, h4⟩ | h
    · simp only [Res.ok.injEq, Prod.mk.injEq] at h1
      obtain ⟨rfl, rfl, rfl⟩ := h1
      have E := get_same e
      right
      refine ⟨d1, ?_, ⟨⟨s, ?_⟩, ?_⟩, E⟩
      · simp only [step]; rw [e, Res.ok_bind]
        have := answer_of h4
        rw [this]
        rfl
      · exact Ts.congr h2 ⟨h3.next, h3.amin, h3.minle, h3.live, h3.window, h3.stored, h3.buf, h3.full, h3.sorted, h3.bound,
          h3.spl, h3.err, h3.cacheN, h3.cache⟩
      · intro hm i; rw [E.next, E.dev]; rw [E.min] at hm; exact T.blank hm i
    · cases h

theorem step_scan_bin (hbs : c.binSearch = true) (d : Data) (x : Idx) (q : Range) : step c d x (.scan q) = .ub := by
  simp only [step]
  unfold scanAll initIter
  rw [if_pos hbs]
  rfl

/-- The operations of a history that returned. -/
theorem bin_history (hok : (plainOf c).Ok K) (hbs : c.binSearch = true) {P : Nat} (hB : Bounds c lo K P)
    (hP31 : P ≤ 2 ^ 31) (h255 : c.maxRec ≤ 255) {limit : Log → Prop} {kept : Log → List Rec}
    (hkept : ∀ l, limit l → kept l = l.live (Spec.dropped c.N c.B l.pages.length))
    {G : Data → Idx → List Op → Prop}
    (hG : ∀ d L x op ops, G d x (op :: ops) → BinTable c lo K d L → limit (after c.maxRec L op) → completes c d op →
      d.buffered ≠ some (d.next % c.N))
    (hG' : ∀ d x op ops d' x' o, G d x (op :: ops) → step c d x op = .ok (d', x', o) → G d' x' ops) :
    ∀ (ops : List Op) (d : Data) (x : Idx) (L : Log), BinTable c lo K d L → limit L → d.next + ops.length ≤ P →
      Client c lo K ops → (∀ r ∈ L.all, ∀ k ∈ Spec.offered ops, r.1 < k) → G d x ops →
      Spec.Run limit kept c.maxRec c.cmpData L ((history c d x ops).takeWhile (·.2.isSome)) := by
  intro ops
  induction ops with
  | nil => intro d x L _ _ _ _ _ _; exact trivial
  | cons op ops ih =>
    intro d x L T hlim hP C hgt g
    rw [List.length_cons] at hP
    obtain ⟨s, Ts⟩ := T.table
    have hcount : pageCount d.wbuf = L.buf.length := by rw [← recs_length (c := c), ← Ts.sim.buf]; rfl
    have hnext : d.next = L.pages.length := Ts.sim.next
    have hdrop : d.min = Spec.dropped c.N c.B L.pages.length := Ts.dropped hok.B0
    cases op with
    | put k v =>
      obtain ⟨h1, h2, h3⟩ := C.put k v (by simp)
      have hgt' : ∀ r ∈ L.all, r.1 < k := fun r hr => hgt r hr k (by simp [Spec.offered])
      have hasc := List.pairwise_cons.mp C.asc
      unfold history
      by_cases hl : limit (L.put c.maxRec (k, v))
      · rcases T.put hok hbs hB (by omega) x h3 h1 h2 hgt' (by
          intro hf
          exact hG d L x _ _ g T hl (by unfold completes; omega)) with ⟨e, -⟩ | ⟨-, d', ⟨e, T'⟩ | ⟨e, T', E, hr⟩⟩
        · simp only [e]
          exact trivial
        · simp only [e]
          intro _
          left
          refine ⟨rfl, ih d' x _ T' hl ?_ C.tail ?_ (hG' _ _ _ _ _ _ _ g e)⟩
          · have := Log_put_pages (L := L) c.maxRec (k, v)
            obtain ⟨s', Ts'⟩ := T'.table
            have : d'.next = _ := Ts'.sim.next
            omega
          · intro r hr k' hk'
            rw [Log_put_all] at hr
            rcases List.mem_append.mp hr with h | h
            · exact hgt r h k' (by simp [Spec.offered, hk'])
            · rw [List.mem_singleton.mp h]; exact hasc.1 k' hk'
        · simp only [e]
          intro _
          right
          refine ⟨rfl, hr, ih d' x _ T' hlim ?_ C.tail ?_ (hG' _ _ _ _ _ _ _ g e)⟩
          · rw [E.next]; omega
          · intro r hr k' hk'
            exact hgt r hr k' (by simp [Spec.offered, hk'])
      · cases step c d x (Op.put k v) with
        | ub => exact trivial
        | fuel => exact trivial
        | ok y => exact fun h => absurd h hl
    | flush =>
      unfold history
      by_cases hl : limit L.flush
      · rcases T.flush hok hbs hB (by omega) x (by
          intro hf
          refine hG d L x _ _ g T hl ?_
          unfold completes
          rw [hcount]
          intro h0
          exact hf (List.length_eq_zero_iff.mp h0)) with ⟨e, -⟩ | ⟨-, d', e, T'⟩
        · simp only [e]
          exact trivial
        · simp only [e]
          intro _
          refine ⟨rfl, ih d' x _ T' hl ?_ C.tail ?_ (hG' _ _ _ _ _ _ _ g e)⟩
          · have := Log_flush_pages (L := L)
            obtain ⟨s', Ts'⟩ := T'.table
            have : d'.next = _ := Ts'.sim.next
            omega
          · intro r hr k' hk'
            rw [Log_flush_all] at hr
            exact hgt r hr k' hk'
      · cases step c d x Op.flush with
        | ub => exact trivial
        | fuel => exact trivial
        | ok y => exact fun h => absurd h hl
    | get k =>
      have hk := C.get k (by simp)
      unfold history
      rcases T.get hok hbs (by omega) h255 x hk with e | ⟨d', e, T', E⟩
      · simp only [e]
        exact trivial
      · simp only [e]
        refine ⟨by rw [hkept L hlim, hdrop], ih d' x _ T' hlim ?_ C.tail hgt (hG' _ _ _ _ _ _ _ g e)⟩
        have := E.next
        omega
    | scan q =>
      unfold history
      simp only [step_scan_bin hbs]
      exact trivial

/-- The state after operations that all returned. -/
theorem bin_run (hok : (plainOf c).Ok K) (hbs : c.binSearch = true) {P : Nat} (hB : Bounds c lo K P)
    (hP31 : P ≤ 2 ^ 31) (h255 : c.maxRec ≤ 255) {G : Data → Idx → List Op → Prop}
    (hG : ∀ d L x op ops, G d x (op :: ops) → BinTable c lo K d L → completes c d op →
      d.buffered ≠ some (d.next % c.N))
    (hG' : ∀ d x op ops d' x' o, G d x (op :: ops) → step c d x op = .ok (d', x', o) → G d' x' ops) :
    ∀ (ops : List Op) (d : Data) (x : Idx) (L : Log) (d' : Data) (x' : Idx), BinTable c lo K d L →
      d.next + ops.length ≤ P → Client c lo K ops → (∀ r ∈ L.all, ∀ k ∈ Spec.offered ops, r.1 < k) → G d x ops →
      runOps c d x ops = .ok (d', x') →
      BinTable c lo K d' (Spec.logAfter c.maxRec L (history c d x ops)) ∧ d'.next ≤ P := by
  intro ops
  induction ops with
  | nil => intro d x L d' x' T hP _ _ _ e; cases e; exact ⟨T, by simpa using hP⟩
  | cons op ops ih =>
    intro d x L d' x' T hP C hgt g e
    rw [List.length_cons] at hP
    obtain ⟨s, Ts⟩ := T.table
    have hcount : pageCount d.wbuf = L.buf.length := by rw [← recs_length (c := c), ← Ts.sim.buf]; rfl
    have hnext : d.next = L.pages.length := Ts.sim.next
    unfold runOps at e
    obtain ⟨⟨d1, x1, o⟩, e1, e2⟩ := Res.bind_eq_ok e
    unfold history
    simp only [e1]
    have g1 := hG' _ _ _ _ _ _ _ g e1
    cases op with
    | put k v =>
      obtain ⟨h1, h2, h3⟩ := C.put k v (by simp)
      have hgt' : ∀ r ∈ L.all, r.1 < k := fun r hr => hgt r hr k (by simp [Spec.offered])
      have hasc := List.pairwise_cons.mp C.asc
      rcases T.put hok hbs hB (by omega) x h3 h1 h2 hgt' (by
          intro hf
          exact hG d L x _ _ g T (by unfold completes; omega)) with ⟨f, -⟩ | ⟨-, d2, ⟨f, T'⟩ | ⟨f, T', E, hr⟩⟩
      · rw [f] at e1; cases e1
      · rw [f] at e1
        cases e1
        refine ih _ _ _ d' x' T' ?_ C.tail ?_ g1 e2
        · have := Log_put_pages (L := L) c.maxRec (k, v)
          obtain ⟨s', Ts'⟩ := T'.table
          have : d1.next = _ := Ts'.sim.next
          omega
        · intro r hr k' hk'
          rw [Log_put_all] at hr
          rcases List.mem_append.mp hr with h | h
          · exact hgt r h k' (by simp [Spec.offered, hk'])
          · rw [List.mem_singleton.mp h]; exact hasc.1 k' hk'
      · rw [f] at e1
        cases e1
        have := ih _ _ L d' x' T' (by rw [E.next]; omega) C.tail (by
          intro r hr k' hk'
          exact hgt r hr k' (by simp [Spec.offered, hk'])) g1 e2
        simpa [Spec.logAfter] using this
    | flush =>
      rcases T.flush hok hbs hB (by omega) x (by
          intro hf
          refine hG d L x _ _ g T ?_
          unfold completes
          rw [hcount]
          intro h0
          exact hf (List.length_eq_zero_iff.mp h0)) with ⟨f, -⟩ | ⟨-, d2, f, T'⟩
      · rw [f] at e1; cases e1
      · rw [f] at e1
        cases e1
        refine ih _ _ _ d' x' T' ?_ C.tail ?_ g1 e2
        · have := Log_flush_pages (L := L)
          obtain ⟨s', Ts'⟩ := T'.table
          have : d1.next = _ := Ts'.sim.next
          omega
        · intro r hr k' hk'
          rw [Log_flush_all] at hr
          exact hgt r hr k' hk'
    | get k =>
      have hk := C.get k (by simp)
      rcases T.get hok hbs (by omega) h255 x hk with f | ⟨d2, f, T', E⟩
      · rw [f] at e1; cases e1
      · rw [f] at e1
        cases e1
        have := ih _ _ L d' x' T' (by rw [E.next]; omega) C.tail hgt g1 e2
        simpa [Spec.logAfter] using this
    | scan q =>
      rw [step_scan_bin hbs] at e1
      cases e1

end

end EDB
