import Verif.Proofs.VarWord
import Verif.Proofs.VarPhase
import Verif.Proofs.DemoVar

/-!
A table with variable data after any number of inserts: a client that inserts 50 bytes of variable data with every record
into a file of 6 pages of 64 bytes fills one variable page with every record.  The state after `n` inserts is described by
induction on `n`.
-/

namespace EDB

open Spec (VOp VOut VLog)

/-- Pages of 64 bytes: four 12-byte records per data page, 56 bytes of variable data per variable page; 6 variable
pages, i.e. 384 bytes, which do not divide 2^32. -/
def demoB : Cfg := { demoV with pageSize := 64, numVar := 6 }

theorem demoB_layout : demoB.Layout := ⟨by decide, by decide, fun _ _ h => h⟩

theorem demoB_ok (K : Nat) : demoB.Ok K where
  B0 := by decide
  dvd := by decide
  two := by decide
  page := by decide
  cap := by decide
  cap16 := by decide
  spl := by decide
  layout := demoB_layout
  cmp := demo_cmp K
  plain := rfl
  spline := rfl
  io _ := rfl

theorem demoB_vok : demoB.VOk where
  vdata := rfl
  page := by decide
  B0 := by decide
  dvd := by decide
  two := by decide
  mem := by decide
  key8 := by decide
  idx := rfl
  io _ := rfl
  cap := fun h => by cases h

theorem demoB_bounds : Bounds demoB 1 (2 ^ 27) (2 ^ 27) := ⟨by decide, by decide, by decide⟩

/-- A new data file. -/
def demoB0 : Data := Data.fresh demoB (fun _ => 0) (fun _ => (0, 0))

/-- A new variable data file. -/
def demoVarB0 : Var := Var.fresh demoB (fun _ => 0) false

/-- The variable data of record number `i`. -/
def bytesOf (i : Nat) : List Byte := blob 50 (UInt8.ofNat i)

/-- The insert of record number `i`. -/
def putOf (i : Nat) : VOp := .put (i + 1) (dat (UInt8.ofNat i)) (some (bytesOf i))

/-- The first `n` inserts. -/
def putsTo (n : Nat) : List VOp := (List.range n).map putOf

theorem bytesOf_length (i : Nat) : (bytesOf i).length = 50 := by
  unfold bytesOf blob
  rw [List.length_map, List.length_range]

theorem datB_length (b : UInt8) : (dat b).length = demoB.dataSize := rfl

/-- Storing 50 bytes behind the header of a page. -/
theorem store_position {v v' : Var} {key : Nat} {bs : List Byte} (hl : bs.length = 50) (h8 : v.loc % 64 = 8)
    (h : storeBytes demoB v key bs = .ok v') : v'.loc = v.loc + 54 := by
  rw [storeBytes_core] at h
  generalize hu : (if v.minRec = 2 ^ 64 - 1 then { v with minRec := setLow demoB.keySize v.minRec key } else v) = u at h
  have hul : u.loc = v.loc := by rw [← hu]; split_ifs <;> rfl
  unfold storeCore at h
  have ps : demoB.pageSize = 64 := rfl
  rw [ps, hul, h8, if_neg (by omega), hl] at h
  rw [show rollVar demoB key { u with wbuf := wr (wr u.wbuf 4 (leBytes demoB.keySize key)) 8 (leBytes 4 50), loc := v.loc + 4 } =
    { u with wbuf := wr (wr u.wbuf 4 (leBytes demoB.keySize key)) 8 (leBytes 4 50), loc := v.loc + 4 } by
      unfold rollVar
      rw [if_neg (by simp only [ps]; omega)]] at h
  have hne : bs ≠ [] := by intro hc; rw [hc] at hl; cases hl
  have hmin : min (64 - (v.loc + 4) % 64) bs.length = 50 := by omega
  rw [putChunks, if_neg hne] at h
  simp only [ps, hmin] at h
  rw [show bs.drop 50 = [] from List.drop_eq_nil_of_le (by omega)] at h
  rw [putChunks, if_pos rfl] at h
  simp only [Res.ok.injEq] at h
  rw [← h]
  unfold rollVar
  rw [if_neg (by simp only [ps]; omega)]

/-- The position before the record is inserted. -/
theorem pre_position {d : Data} {v : Var} (h : (v.loc = 8 ∧ pageCount d.wbuf < 4) ∨ v.loc % 64 = 62) :
    (preVar demoB d v).loc = if v.loc % 64 = 62 then v.loc + 10 else v.loc := by
  unfold preVar
  have ps : demoB.pageSize = 64 := rfl
  have hm : demoB.maxRec = 4 := by decide
  have hv : demoB.vhdr = 8 := rfl
  rw [ps, hm, hv]
  rcases h with ⟨h1, h2⟩ | h
  · rw [if_neg (by rw [h1]; simp only [ge_iff_le, not_or, not_and]; omega), if_neg (by rw [h1]; decide)]
  · rw [if_pos (by left; omega), if_pos h]
    simp only [writeVar_loc]
    omega

/-- The state after `n` inserts. -/
structure After (n : Nat) (d : Data) (v : Var) (l : VLog) (g : Gh) : Prop where
  tab : VTable demoB 1 (2 ^ 27) True d v l g
  ph : VPh demoB v
  nobuf : d.buffered = none
  held : pageCount d.wbuf ≠ 0 ∨ d.next = 0
  data : 0 < n → HasData demoB g v
  pages : d.next ≤ n
  keys : ∀ r ∈ l.log.all, r.1 ≤ n
  next : v.next = n - 1
  loc : v.loc = if n = 0 then 8 else 64 * (n - 1) + 62
  start : n = 0 → pageCount d.wbuf = 0
  ents : ∀ m, m < n → ∃ e ∈ g.es, e.key = m + 1 ∧ e.bs = bytesOf m ∧ e.a = 56 * m

theorem After.zero : After 0 demoB0 demoVarB0 VLog.empty ⟨0, [], [], []⟩ where
  tab := fresh_vtable (demoB_ok _) demoB_vok (fun _ => rfl) _ _ _ _
  ph := fresh_vph demoB_vok _ _
  nobuf := rfl
  held := Or.inr rfl
  data := fun h => absurd h (by omega)
  pages := le_refl _
  keys := by simp [VLog.empty, Spec.Log.all, Spec.Log.empty]
  next := rfl
  loc := rfl
  start := fun _ => by
    have := congrArg List.length (recs_init demoB)
    rw [recs_length] at this
    exact this
  ents := fun m h => absurd h (by omega)

theorem After.notRefused {n : Nat} {d : Data} {v : Var} {l : VLog} {g : Gh} (A : After n d v l g) : ¬ Spec.MayRefuse demoB.maxRec l.log := by
  rintro ⟨h1, ps, pg, h2, -⟩
  have hcount : pageCount d.wbuf = l.log.buf.length := by rw [← A.tab.tab.sim.buf, recs_length]
  have hn := A.tab.tab.sim.next
  rw [h1] at hcount
  rw [h2, List.length_append, List.length_singleton] at hn
  rcases A.held with h | h
  · exact h hcount
  · omega

/-- One more insert. -/
theorem After.step {n : Nat} (hn : n ≤ 2 ^ 26) {d : Data} {v : Var} {l : VLog} {g : Gh} (A : After n d v l g) (x : Idx) :
    ∃ d' v' l' g', stepV demoB d x v (putOf n) = .ok (d', x, v', .code 0) ∧ After (n + 1) d' v' l' g' ∧
      storeBytes demoB { preVar demoB d v with hasVar := true } (n + 1) (bytesOf n) = .ok v' := by
  have hok := demoB_ok (2 ^ 27)
  have hv := demoB_vok
  have hpos : pageCount d.wbuf ≥ demoB.maxRec → 0 < n := by
    intro h
    rcases Nat.eq_zero_or_pos n with h0 | h0
    · have := A.start h0
      have : demoB.maxRec = 4 := by decide
      omega
    · exact h0
  obtain ⟨d', x', v', g', h1, h2, h3⟩ := A.tab.put hok (Or.inl rfl) hv demoB_bounds (by have := A.pages; omega) x (key := n + 1)
    (data := dat (UInt8.ofNat n)) (b := some (bytesOf n)) (datB_length _) (by omega) (by omega) (by omega)
    (fun bs h => by cases h; rw [bytesOf_length]; omega) (fun r hr => by have := A.keys r hr; omega)
    (fun _ => by rw [A.nobuf]; simp) (fun _ h => A.data (hpos h)) (Or.inl trivial)
  rcases h3 with ⟨hs, T', hb, -⟩ | ⟨-, -, -, hm⟩
  swap
  · exact absurd hm A.notRefused
  have hxx := stepV_same hv.idx hs
  subst hxx
  obtain ⟨⟨e, e1, e2, e3, e4⟩, hd⟩ := hb _ rfl
  -- what was stored
  have hst : storeBytes demoB { preVar demoB d v with hasVar := true } (n + 1) (bytesOf n) = .ok v' := by
    have := hs
    simp only [stepV, putVar, show demoB.useVdata = true from rfl, if_true, show demoB.rlc = false from rfl, Bool.false_eq_true, if_false] at this
    obtain ⟨⟨d1, x1, v1, r1⟩, f1, f2⟩ := Res.bind_eq_ok this
    obtain ⟨⟨d2, x2, r2, w2⟩, f3, f4⟩ := Res.bind_eq_ok f1
    simp only [Res.ok.injEq, Prod.mk.injEq, VOut.code.injEq] at f2
    obtain ⟨rfl, rfl, rfl, rfl⟩ := f2
    simp only at f4
    split_ifs at f4 with hr
    · simp only [Res.ok.injEq, Prod.mk.injEq] at f4
      exact absurd f4.2.2.2 hr
    · obtain ⟨v3, f5, f6⟩ := Res.bind_eq_ok f4
      simp only [Res.ok.injEq, Prod.mk.injEq] at f6
      rw [f5, f6.2.2.1]
  obtain ⟨b1, b2⟩ := put_buffered hok hv (datB_length _) A.nobuf A.held hs
  -- the position
  have hl := A.loc
  have hcase : (v.loc = 8 ∧ pageCount d.wbuf < 4) ∨ v.loc % 64 = 62 := by
    rcases Nat.eq_zero_or_pos n with h0 | h0
    · left
      have := A.start h0
      rw [if_pos h0] at hl
      exact ⟨hl, by omega⟩
    · right
      rw [if_neg (by omega)] at hl
      omega
  have hpre := pre_position hcase
  have hpre' : (preVar demoB d v).loc = 64 * n + 8 := by
    rw [hpre]
    rcases Nat.eq_zero_or_pos n with h0 | h0
    · rw [if_pos h0] at hl
      rw [hl, h0]; rfl
    · rw [if_neg (by omega)] at hl
      rw [if_pos (by omega), hl]; omega
  have hloc : v'.loc = 64 * n + 62 := by
    have := store_position (bytesOf_length n) (show ({ preVar demoB d v with hasVar := true } : Var).loc % 64 = 8 by simp only; omega) hst
    rw [this]
    simp only
    omega
  -- the page
  have hcap : demoB.vcap = 56 := rfl
  have hsz : putSize demoB d (some (bytesOf n)) ≤ 110 := by
    unfold putSize padOf storedLen
    simp only [bytesOf_length, hcap]
    split_ifs <;> omega
  have V' := T'.inv.sim
  have V := A.tab.inv.sim
  have o1 := V'.lo
  have o2 : g'.s.length < (v'.next + 1) * demoB.vcap := T'.opn
  have o3 : g.s.length < (v.next + 1) * demoB.vcap := A.tab.opn
  obtain ⟨q, hq⟩ := V'.loc
  have hnx := A.next
  rw [hcap] at o1 o2 o3 hq
  rw [show demoB.numVar * demoB.pageSize = 384 from rfl, show demoB.pageSize = 64 from rfl, show demoB.vhdr = 8 from rfl, hloc] at hq
  have hnext : v'.next = n := by omega
  have hlen : g'.s.length = 56 * n + 54 := by omega
  have hfin := (T'.ents.ok e (by rw [e1]; exact List.mem_append_right _ (List.mem_singleton.mpr rfl))).fin_le
  have heo := T'.ents.ok e (by rw [e1]; exact List.mem_append_right _ (List.mem_singleton.mpr rfl))
  have hea : e.a = 56 * n := by
    have hup : e.a ≤ 56 * n := by
      unfold Ent.fin at hfin
      rw [e3, bytesOf_length] at hfin
      omega
    rcases Nat.eq_zero_or_pos n with h0 | h0
    · omega
    · obtain ⟨e', f1, f2, f3, f4⟩ := A.ents (n - 1) (by omega)
      have hs' := T'.ents.sorted
      rw [e1, List.pairwise_append] at hs'
      have := (hs'.2.2 e' f1 e (List.mem_singleton.mpr rfl)).2
      unfold Ent.fin at this
      rw [f3, bytesOf_length, f4] at this
      have hf := heo.fits
      rw [hcap] at hf
      omega
  refine ⟨d', v', _, g', hs, ⟨T', A.ph.put hv rfl rfl hs, b1, b2, fun _ => hd trivial, ?_, ?_, by omega, ?_, fun h => absurd h (by omega), ?_⟩, hst⟩
  · have h5 := T'.tab.sim.next
    have h6 := A.tab.tab.sim.next
    have h7 := A.pages
    have h8 : (l.put demoB.maxRec (n + 1) (dat (UInt8.ofNat n)) (some (bytesOf n))).log.pages.length ≤ l.log.pages.length + 1 := by
      simp only [VLog.put, Spec.Log.put]
      split_ifs
      · simp
      · simp
    omega
  · intro r hr
    simp only [VLog.put] at hr
    rw [Log_put_all] at hr
    rcases List.mem_append.mp hr with h | h
    · have := A.keys r h; omega
    · rw [List.mem_singleton.mp h]
  · rw [if_neg (by omega), hloc]; omega
  · intro m hm
    by_cases h : m < n
    · obtain ⟨e', f1, f2⟩ := A.ents m h
      exact ⟨e', by rw [e1]; exact List.mem_append_left _ f1, f2⟩
    · have : m = n := by omega
      subst this
      exact ⟨e, by rw [e1]; exact List.mem_append_right _ (List.mem_singleton.mpr rfl), e2, e3, hea⟩

theorem runOpsV_snoc {c : Cfg} (op : VOp) : ∀ (ops : List VOp) (d : Data) (x : Idx) (v : Var),
    runOpsV c d x v (ops ++ [op]) = (runOpsV c d x v ops >>= fun s => stepV c s.1 s.2.1 s.2.2 op >>= fun t => .ok (t.1, t.2.1, t.2.2.1)) := by
  intro ops
  induction ops with
  | nil =>
    intro d x v
    simp only [List.nil_append, runOpsV, Res.ok_bind]
  | cons o ops ih =>
    intro d x v
    rw [List.cons_append, runOpsV, runOpsV]
    cases stepV c d x v o with
    | ub => rfl
    | fuel => rfl
    | ok t =>
      simp only [Res.ok_bind]
      exact ih _ _ _

theorem putsTo_succ (n : Nat) : putsTo (n + 1) = putsTo n ++ [putOf n] := by
  unfold putsTo
  rw [List.range_succ, List.map_append]
  rfl

/-- Any number of inserts. -/
theorem after_puts (x : Idx) : ∀ n, n ≤ 2 ^ 26 + 1 → ∃ d v l g, runOpsV demoB demoB0 x demoVarB0 (putsTo n) = .ok (d, x, v) ∧ After n d v l g := by
  intro n
  induction n with
  | zero => intro _; exact ⟨_, _, _, _, rfl, After.zero⟩
  | succ n ih =>
    intro hn
    obtain ⟨d, v, l, g, h, A⟩ := ih (by omega)
    obtain ⟨d', v', l', g', h1, h2, -⟩ := A.step (by omega) x
    refine ⟨d', v', l', g', ?_, h2⟩
    rw [putsTo_succ, runOpsV_snoc, h]
    simp only [Res.ok_bind, h1]

end EDB
