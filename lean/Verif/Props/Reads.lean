import Verif.Proofs.Core
import Verif.Props.History

/-!
# C15, C40, C46: searching pages and the write buffer
-/

namespace EDB

open Spec (Log Op Out)

/-! ## C15 -/

/-- C15.  In every state that represents a log `L` (`Table`; reached by every history, see `reached` and
`C45_sorted_storage_partial`): the page-by-page search for `key`, started at any page inside any bracket of retained pages, terminates
after at most as many page reads as the bracket has pages.  If some page of the bracket holds `key` it succeeds and the page
it leaves in the read buffer is that page; if it fails no page of the bracket holds `key`. -/
theorem C15_linear_search (c : Cfg) (lo K : Nat) (d : Data) (L : Log) (key start low high : Nat) (hok : c.Ok K)
    (T : Table c lo K d L) (hk : key < K) (h1 : d.min ≤ low) (h2 : low ≤ start) (h3 : start ≤ high) (h4 : high < L.pages.length) :
    ∃ d' b, linSearch c key (high - low + 2) d start low high = .ok (d', b) ∧ Table c lo K d' L ∧
      d'.numReads ≤ d.numReads + (high - low + 1) ∧
      (∀ l v, low ≤ l → l ≤ high → (key, v) ∈ L.pages.getD l [] →
        b = true ∧ Spec.pageRecs c.hdr c.recSize c.keySize c.dataSize d'.rbuf = L.pages.getD l []) ∧
      (b = true → ∃ l, low ≤ l ∧ l ≤ high ∧
        Spec.pageRecs c.hdr c.recSize c.keySize c.dataSize d'.rbuf = L.pages.getD l []) := by
  have hn := T.sim.next
  obtain ⟨d', b, e1, e2, e3, e4, e5, e6⟩ := linSearch_ok hok.cmp hok.N0 hk (high - low + 2) d T.sim start low high
    (by omega) (by omega) (by omega) (by omega) (fun _ => by omega)
  refine ⟨d', b, e1, T.congr e2 e3, by omega, ?_, ?_⟩
  · intro l v hl1 hl2 hmem
    cases b with
    | false =>
      exact absurd ⟨⟨_, hmem, le_refl _⟩, ⟨_, hmem, le_refl _⟩⟩ (e6 rfl l (by omega) (by omega))
    | true =>
      refine ⟨rfl, ?_⟩
      obtain ⟨q, q1, q2, q3, ⟨⟨r, hr, hr'⟩, ⟨s, hs, hs'⟩⟩, -⟩ := e5 rfl
      have : q = l := by
        have hlq : l < L.pages.length := by omega
        have hql : q < L.pages.length := by omega
        rw [getD_page hlq] at hmem
        rw [getD_page hql] at hr hs
        rcases Nat.lt_trichotomy q l with h | h | h
        · have := Log_pages_sorted T.sim.sorted h hlq _ hs _ hmem
          simp only at this hs'
          omega
        · exact h
        · have := Log_pages_sorted T.sim.sorted h hql _ hmem _ hr
          simp only at this hr'
          omega
      rw [← recs_spec, q3, this]
  · intro hb
    obtain ⟨q, q1, q2, q3, -⟩ := e5 hb
    exact ⟨q, by omega, by omega, by rw [← recs_spec, q3]⟩

/-- The hypotheses hold of the demo table after twelve inserts and a flush (retained pages 2-5), bracket [2, 5]. -/
example : ∃ d L, Table demo 0 1000 d L ∧ d.min = 2 ∧ 5 < L.pages.length := by
  obtain ⟨d, h1, T, h3, _⟩ := runOps_ok (P := 18) (lo := 0) (demo_ok 1000) (Or.inl rfl) (demo_bounds (by decide) (by decide)) (by decide)
    (G := fun d x ops => NoStale demo d x ops)
    (fun d L x op ops g _ hc => g.1 hc) (fun d L x op ops d' x' o g _ _ e => g.2 d' x' o e)
    (demoPuts ++ [Op.flush] ++ demoReads) demo0 noIdx Log.empty (fresh_table (demo_ok _) _ _) (by decide) demo_client
    (by simp [Log.all, Log.empty])
    (NoStale.of_phased (K := 1000) (lo := 0) (demo_ok _) _ _ _ ⟨demoPuts, [Op.flush], demoReads, rfl, by
      simp [demoPuts, Op.isPut], by simp, by simp [demoReads, Op.isRead], fun _ => rfl, fun _ => Or.inr rfl⟩ demo_client)
  refine ⟨d, _, T, ?_, ?_⟩
  · have : ((runOps demo demo0 noIdx (demoPuts ++ [Op.flush] ++ demoReads)).check fun (d, _) => d.min = 2) = true := by
      decide +kernel
    rw [h1] at this
    simpa [Res.check] using this
  · have : ((runOps demo demo0 noIdx (demoPuts ++ [Op.flush] ++ demoReads)).check fun (d, _) => 5 < d.next) = true := by
      decide +kernel
    rw [h1] at this
    rw [← T.sim.next]
    simpa [Res.check] using this

/-! ## C46 -/

/-- C46, first part.  Whatever the configuration and the state: a lookup of a key not smaller than the smallest buffered
key (or with no page stored) does not touch the storage or the read buffer. -/
theorem C46_buffer_no_read (c : Cfg) (d d' : Data) (key : Nat) (r : Int) (out : Option (List Byte))
    (hb : d.next = 0 ∨ (pageCount d.wbuf ≠ 0 ∧ pageMinKey c d.wbuf ≤ key))
    (h : get c d key = .ok (d', r, out)) : d' = d ∧ d'.numReads = d.numReads := by
  have : d' = d := by
    unfold get at h
    split_ifs at h with h1 h2 h3 h4
    · obtain ⟨_, _, e⟩ := Res.bind_eq_ok h
      cases e; rfl
    · cases h; rfl
    · obtain ⟨_, _, e⟩ := Res.bind_eq_ok h
      cases e; rfl
    · omega
    · omega
  exact ⟨this, by rw [this]⟩

/-- C46, second part.  In every state that represents a log, every lookup terminates after at most as many page reads as
the range predicted by the spline has retained pages. -/
theorem C46_bounded_reads (c : Cfg) (lo K P : Nat) (d : Data) (L : Log) (key : Nat) (hok : c.Ok K) (hB : Bounds c lo K P)
    (T : Table c lo K d L) (hP : d.next ≤ P) (hk : key < K) :
    ∃ d' r out, get c d key = .ok (d', r, out) ∧
      (d'.numReads = d.numReads ∨
        ∃ f, d.spl.find c.cmpKey key = .ok f ∧ d'.numReads ≤ d.numReads + (f.high + 1 - max f.low d.min)) := by
  have hbs := T.sim.sortedBuf
  have hbuf : ∃ r, searchBuffer c d.wbuf key = .ok r := by
    unfold searchBuffer
    split_ifs
    · exact ⟨_, rfl⟩
    · obtain ⟨r, hr, -⟩ := searchNode_recs hok.cmp hbs hk
      rw [hr, Res.ok_bind]
      cases r <;> exact ⟨_, rfl⟩
  obtain ⟨⟨r, o⟩, hr⟩ := hbuf
  have stored : 0 < d.next → (∀ r ∈ L.buf, r.1 ≠ key) → ∃ d' r out, getStored c d key = .ok (d', r, out) ∧
      (d'.numReads = d.numReads ∨
        ∃ f, d.spl.find c.cmpKey key = .ok f ∧ d'.numReads ≤ d.numReads + (f.high + 1 - max f.low d.min)) := by
    intro hn hno
    obtain ⟨d', code, out, e1, e2, e3, e4, e5⟩ := getStored_ok hok.cmp hok.N0 hB hok.spline hk T.sim hP hn hno
    exact ⟨d', code, out, e1, Or.inr e4⟩
  unfold get
  by_cases h0 : d.next = 0
  · rw [if_pos h0, hr, Res.ok_bind]
    exact ⟨d, _, _, rfl, Or.inl rfl⟩
  · rw [if_neg h0]
    by_cases hc : pageCount d.wbuf ≠ 0
    · rw [if_pos hc]
      by_cases h1 : key > pageMaxKey c d.wbuf
      · rw [if_pos h1]; exact ⟨d, _, _, rfl, Or.inl rfl⟩
      · rw [if_neg h1]
        by_cases h2 : key ≥ pageMinKey c d.wbuf
        · rw [if_pos h2, hr, Res.ok_bind]
          exact ⟨d, _, _, rfl, Or.inl rfl⟩
        · rw [if_neg h2]
          refine stored (by omega) ?_
          intro r hr
          rw [← T.sim.buf] at hr
          have := minKey_le hbs hr
          omega
    · rw [if_neg hc]
      refine stored (by omega) ?_
      intro r hr
      have hnil : recs c d.wbuf = [] := List.length_eq_zero_iff.mp (by rw [recs_length]; omega)
      rw [← T.sim.buf, hnil] at hr
      cases hr

/-! ## C40 -/

/-- A lookup of the record in buffer slot `i`. -/
theorem get_slot {c : Cfg} {lo K : Nat} {d : Data} {L : Log} {key i : Nat} {v : List Byte} (hok : c.Ok K)
    (T : Table c lo K d L) (hi : L.buf[i]? = some (key, v)) :
    get c d key = .ok (d, if i % 256 = 255 then -1 else 0, some v) := by
  have hbs := T.sim.sortedBuf
  obtain ⟨hil, hiv⟩ := List.getElem?_eq_some_iff.mp hi
  have hmem : (key, v) ∈ L.buf := hiv ▸ List.getElem_mem hil
  have hk : key < K := (T.sim.bound _ (mem_all_buf hmem)).2
  have hcount : pageCount d.wbuf = L.buf.length := by rw [← T.sim.buf, recs_length]
  have hki : slotKey c d.wbuf i = key ∧ slotData c d.wbuf i = v := by
    have := recs_getElem? c d.wbuf i (by omega)
    rw [T.sim.buf, hi] at this
    simpa [eq_comm] using this
  have hbuf : searchBuffer c d.wbuf key = .ok (toInt8 i, some v) := by
    unfold searchBuffer
    rw [if_neg (by omega)]
    obtain ⟨r, hr, hx⟩ := searchNode_ok hok.cmp hbs hk
    have : r = some i := (hx i).mpr ⟨by omega, hki.1⟩
    rw [hr, Res.ok_bind, this]
    simp only
    rw [hki.2]
  have hconv : (if toInt8 i ≠ -1 then (0 : Int) else -1) = if i % 256 = 255 then -1 else 0 := by
    by_cases h : i % 256 = 255
    · rw [if_pos h, if_neg]
      unfold toInt8
      simp only
      split_ifs <;> omega
    · rw [if_neg h, if_pos (toInt8_ne h)]
  rw [← T.sim.buf] at hmem
  have hmin := minKey_le hbs hmem
  have hmax := le_maxKey hbs hmem
  simp only at hmin hmax
  unfold get
  by_cases h0 : d.next = 0
  · rw [if_pos h0, hbuf, Res.ok_bind]
    simp only
    rw [hconv]
  · rw [if_neg h0, if_pos (show pageCount d.wbuf ≠ 0 by omega), if_neg (by omega), if_pos (by omega), hbuf, Res.ok_bind]
    simp only
    rw [hconv]

/-- C40 (`_partial`: except the slots whose number is 255 modulo 256, for which it is false, `C40_false_slot255`).  In
every state that represents a log, a record in slot `i` of the write buffer is found by `embedDBGet`. -/
theorem C40_buffer_slot_partial (c : Cfg) (lo K : Nat) (d : Data) (L : Log) (key i : Nat) (v : List Byte) (hok : c.Ok K)
    (T : Table c lo K d L) (hi : L.buf[i]? = some (key, v)) (h : i % 256 ≠ 255) :
    get c d key = .ok (d, 0, some v) := by
  rw [get_slot hok T hi, if_neg h]

/-- C40 is false: in every state and for every configuration, a record in a slot numbered 255 modulo 256 is reported as
not found (`searchBuffer` returns the slot number as an `int8_t`, embedDB.c:1443-1458). -/
theorem C40_false_slot255 (c : Cfg) (lo K : Nat) (d : Data) (L : Log) (key i : Nat) (v : List Byte) (hok : c.Ok K)
    (T : Table c lo K d L) (hi : L.buf[i]? = some (key, v)) (h : i % 256 = 255) :
    get c d key = .ok (d, -1, some v) := by
  rw [get_slot hok T hi, if_pos h]

/-- `n` inserts of keys 1, 2, … into a new table whose page has room for them. -/
theorem fill {c : Cfg} {K : Nat} (hok : c.Ok K) (hB : Bounds c 0 K 1) (x : Idx) (rb : Page) (sm : Nat → Nat × Nat)
    (v : List Byte) (hv : v.length = c.dataSize) : ∀ n, n ≤ c.maxRec → n < K →
    ∃ d, runOps c (Data.fresh c rb sm) x ((List.range n).map fun i => .put (i + 1) v) = .ok (d, x) ∧ d.next = 0 ∧
      Table c 0 K d ⟨[], (List.range n).map fun i => (i + 1, v)⟩ := by
  have hrun : ∀ (ops : List Op) (op : Op) (d : Data) (x : Idx), runOps c d x (ops ++ [op]) =
      (runOps c d x ops >>= fun s => step c s.1 s.2 op >>= fun t => .ok (t.1, t.2.1)) := by
    intro ops
    induction ops with
    | nil =>
      intro op d x
      simp only [List.nil_append, runOps, Res.ok_bind]
    | cons o ops ih =>
      intro op d x
      simp only [List.cons_append, runOps]
      cases h : step c d x o with
      | ok r => simp only [Res.ok_bind]; exact ih op r.1 r.2.1
      | ub => rfl
      | fuel => rfl
  intro n
  induction n with
  | zero => intro _ _; exact ⟨_, rfl, rfl, fresh_table hok rb sm⟩
  | succ n ih =>
    intro h1 h2
    obtain ⟨d, e, hn, T⟩ := ih (by omega) (by omega)
    obtain ⟨d', h | h⟩ := T.put hok (Or.inl rfl) hB (by omega) x hv (Nat.zero_le (n + 1)) (by omega) (by
      intro r hr
      simp only [Log.all, List.flatten_nil, List.nil_append, List.mem_map, List.mem_range] at hr
      obtain ⟨i, hi, rfl⟩ := hr
      simp only; omega) (by simp only [List.length_map, List.length_range]; intro h; omega)
    · have T' := h.2
      unfold Log.put at T'
      rw [if_neg (by simp only [List.length_map, List.length_range]; omega)] at T'
      refine ⟨d', ?_, by rw [T'.sim.next]; rfl, ?_⟩
      · rw [List.range_succ, List.map_append, List.map_singleton, hrun, e, Res.ok_bind, h.1]; rfl
      · rw [List.range_succ, List.map_append, List.map_singleton]; exact T'
    · obtain ⟨_, _, _, hr, ps, pg, hp, _⟩ := h
      simp at hp

/-- For every configuration whose pages hold at least 256 records, such a state is reached by inserting 256 keys. -/
theorem C40_false_slot255_reached (c : Cfg) (K : Nat) (hok : c.Ok K) (hB : Bounds c 0 K 1) (x : Idx) (rb : Page)
    (sm : Nat → Nat × Nat) (v : List Byte) (hv : v.length = c.dataSize) (h256 : 256 ≤ c.maxRec) (hK : 256 < K) :
    ∃ d, runOps c (Data.fresh c rb sm) x ((List.range 256).map fun i => .put (i + 1) v) = .ok (d, x) ∧
      get c d 256 = .ok (d, -1, some v) ∧ ∀ k, 1 ≤ k → k < 256 → get c d k = .ok (d, 0, some v) := by
  obtain ⟨d, h1, -, T⟩ := fill hok hB x rb sm v hv 256 h256 hK
  refine ⟨d, h1, C40_false_slot255 c 0 K d _ 256 255 v hok T (by rw [List.getElem?_map, List.getElem?_range (by omega)]; rfl) rfl, ?_⟩
  intro k hk1 hk2
  refine C40_buffer_slot_partial c 0 K d _ k (k - 1) v hok T ?_ (by omega)
  rw [List.getElem?_map, List.getElem?_range (by omega), Option.map_some]
  congr 2
  omega

/-- A demo table with 256 records per page. -/
def demo256 : Cfg := { demo with pageSize := 6 + 8 * 256 }

/-- It meets the hypotheses. -/
theorem demo256_ok (K : Nat) : demo256.Ok K where
  B0 := by decide
  dvd := by decide
  two := by decide
  page := by decide
  cap := by decide
  cap16 := by decide
  spl := by decide
  layout := ⟨by decide, by decide, fun _ _ h => h⟩
  cmp := demo_cmp K
  plain := rfl
  spline := rfl
  io _ := rfl

example : ∃ d, runOps demo256 (Data.fresh demo256 (fun _ => 0) fun _ => (0, 0)) noIdx
    ((List.range 256).map fun i => .put (i + 1) (dat 7)) = .ok (d, noIdx) ∧ get demo256 d 256 = .ok (d, -1, some (dat 7)) := by
  obtain ⟨d, h1, h2, _⟩ := C40_false_slot255_reached demo256 1000 (demo256_ok _) ⟨by decide, by decide, by decide⟩ noIdx
    (fun _ => 0) (fun _ => (0, 0)) (dat 7) rfl (by decide) (by decide)
  exact ⟨d, h1, h2⟩

end EDB
