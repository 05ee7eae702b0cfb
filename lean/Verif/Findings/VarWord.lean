import Verif.Proofs.VarWordReach

/-!
# C72: variable data beyond 4 GiB

The position in the variable data, a `uint32_t`, counts all bytes ever written and wraps around at 2^32.  The location
stored with a record is this position modulo the size of the file.  If the size does not divide 2^32 the location stored
after the wrap is not where the data goes.
-/

namespace EDB

open Spec (VOp VOut VLog)

/-- `runOpsV32` of one more operation. -/
theorem runOpsV32_snoc {c : Cfg} (op : VOp) : ∀ (ops : List VOp) (d : Data) (x : Idx) (v : Var),
    runOpsV32 c d x v (ops ++ [op]) = (runOpsV32 c d x v ops >>= fun s => stepV32 c s.1 s.2.1 s.2.2 op >>= fun t => .ok (t.1, t.2.1, t.2.2.1)) := by
  intro ops
  induction ops with
  | nil =>
    intro d x v
    simp only [List.nil_append, runOpsV32, Res.ok_bind]
  | cons o ops ih =>
    intro d x v
    rw [List.cons_append, runOpsV32, runOpsV32]
    cases stepV32 c d x v o with
    | ub => rfl
    | fuel => rfl
    | ok t =>
      simp only [Res.ok_bind]
      exact ih _ _ _

/-- The insert at which the position wraps around: the record's location is 8, the data goes to page 4 of the file. -/
theorem crossing (x : Idx) {d : Data} {v : Var} {l : VLog} {g : Gh} (A : After (2 ^ 26) d v l g) :
    ∃ d' v' l' g', stepV32 demoB d x v (putOf (2 ^ 26)) = .ok (d', x, v'.word, .code 0) ∧
      (∃ i, i < pageCount d'.wbuf ∧ slotKey demoB d'.wbuf i = 2 ^ 26 + 1 ∧ slotLoc demoB d'.wbuf i = 8 ∧
        slotData demoB d'.wbuf i = dat (UInt8.ofNat (2 ^ 26)) ∧ i < 4) ∧
      SortedPage demoB (2 ^ 27) d'.wbuf ∧ (∃ d2, After (2 ^ 26 + 1) d2 v' l' g') := by
  have hok := demoB_ok (2 ^ 27)
  have hv := demoB_vok
  obtain ⟨d2, v', l', g', -, A', hst⟩ := A.step (le_refl _) x
  have hl : v.loc = 2 ^ 32 - 2 := by rw [A.loc, if_neg (by decide)]; decide
  have hw : v.word = v := by unfold Var.word w32; rw [Nat.mod_eq_of_lt (by omega)]
  have hdiv : demoB.pageSize ∣ 2 ^ 32 := by decide
  have hpre : (preVar demoB d v).loc = 2 ^ 32 + 8 := by
    have h62 : v.loc % 64 = 62 := by omega
    rw [pre_position (Or.inr h62), if_pos h62, hl]
    rfl
  have h32 : preVar32 demoB d v = (preVar demoB d v).word := by
    have := preVar_word (c := demoB) (v := v) d (pageAgree_dvd demoB hdiv _)
    rw [hw] at this
    exact this
  have hloc : varLoc32 demoB ({ preVar demoB d v with hasVar := true } : Var).word = .ok 8 := by
    unfold varLoc32
    rw [show ({ preVar demoB d v with hasVar := true } : Var).word.hasVar = true from rfl, if_pos rfl,
      show ({ preVar demoB d v with hasVar := true } : Var).word.loc = w32 (preVar demoB d v).loc from rfl, hpre]
    rfl
  have hstore : storeBytes32 demoB ({ preVar demoB d v with hasVar := true } : Var).word (2 ^ 26 + 1) (bytesOf (2 ^ 26)) = .ok v'.word := by
    rw [storeBytes_word _ _ (fun n _ => pageAgree_dvd demoB hdiv n), hst]
    rfl
  -- the data part
  have hcap : demoB.maxRec = 4 := by decide
  have hdl := datB_length (UInt8.ofNat (2 ^ 26))
  rcases dataPut hok (Or.inl rfl) hv demoB_bounds A.tab.tab (by have := A.pages; omega) x 8 (key := 2 ^ 26 + 1)
    (data := dat (UInt8.ofNat (2 ^ 26))) hdl (by decide) (by decide) (fun r hr => by have := A.keys r hr; omega)
    (fun _ => by rw [A.nobuf]; simp) with ⟨d1, w, E1, hx, T'⟩ | ⟨-, -, -, -, -, hm⟩
  swap
  · exact absurd hm A.notRefused
  refine ⟨_, v', l', g', ?_, ?_, T'.sim.sortedBuf, d2, A'⟩
  · unfold stepV32 putOf putVar32
    simp only [show demoB.useVdata = true from rfl, if_true, h32]
    have e : (⟨(preVar demoB d v).word.dev, (preVar demoB d v).word.wbuf, (preVar demoB d v).word.rbuf, (preVar demoB d v).word.buffered,
        (preVar demoB d v).word.loc, (preVar demoB d v).word.minRec, (preVar demoB d v).word.avail, (preVar demoB d v).word.next, true⟩ : Var) =
      ({ preVar demoB d v with hasVar := true } : Var).word := rfl
    rw [e, hloc]
    simp only [Res.ok_bind]
    rw [hx]
    simp only [Res.ok_bind, show demoB.rlc = false from rfl, Bool.false_eq_true, if_false, ne_eq, not_true]
    rw [hstore]
    rfl
  · obtain ⟨p, p1, p2⟩ := accepted_buf (c := demoB) (d := d1) (2 ^ 26 + 1) (dat (UInt8.ofNat (2 ^ 26))) 8
    have hp : pageCount p < 4 := by
      rcases p2 with ⟨-, h⟩ | ⟨h1, h2⟩
      · omega
      · rw [h2, ← hcap]; exact h1
    rw [p1]
    refine ⟨pageCount p, ?_, ?_, ?_, ?_, hp⟩
    · rw [append_count hok _ _ _ _ hdl (by omega)]; omega
    · exact (append_key hok p _ _ 8 hdl (by decide)).2
    · exact append_loc_new hok.layout rfl p _ _ 8 hdl (by decide)
    · have h := recs_append hok.layout p (2 ^ 26 + 1) (dat (UInt8.ofNat (2 ^ 26))) 8 hdl (by decide) (by omega)
      have h2 := congrArg (fun t => t[pageCount p]?) h
      have hr : (recs demoB p).length = pageCount p := recs_length _ _
      rw [List.getElem?_append_right (by omega), hr, Nat.sub_self] at h2
      unfold recs at h2
      rw [List.getElem?_map, append_count hok _ _ _ _ hdl (by omega), List.getElem?_range (by omega)] at h2
      simp only [Option.map_some, List.getElem?_cons_zero, Option.some.injEq, Prod.mk.injEq] at h2
      exact h2.2

/-- Looking up the record just inserted: its location points to page 0 of the file, which holds record 2^26 - 4. -/
theorem after_crossing (x : Idx) {d d2 : Data} {v : Var} {l : VLog} {g : Gh} (A : After (2 ^ 26 + 1) d2 v l g) {i : Nat}
    (hi : i < pageCount d.wbuf) (hk : slotKey demoB d.wbuf i = 2 ^ 26 + 1) (hloc : slotLoc demoB d.wbuf i = 8) (hi4 : i < 4)
    (hs : SortedPage demoB (2 ^ 27) d.wbuf) :
    ∃ d' v', stepV32 demoB d x v.word (.getVar (2 ^ 26 + 1)) =
      .ok (d', x, v', .gotVar 0 (some (slotData demoB d.wbuf i)) (some (bytesOf (2 ^ 26 - 4)))) := by
  have hok := demoB_ok (2 ^ 27)
  have hv := demoB_vok
  obtain ⟨r, r1, r2⟩ := searchNode_ok hok.cmp hs (key := 2 ^ 26 + 1) (by decide)
  have hr : r = some i := (r2 i).mpr ⟨hi, hk⟩
  subst hr
  have hsb : searchBuffer demoB d.wbuf (2 ^ 26 + 1) = .ok ((i : Int), some (slotData demoB d.wbuf i)) := by
    unfold searchBuffer
    rw [if_neg (by omega), r1]
    simp only [Res.ok_bind]
    unfold toInt8
    simp only
    rw [Nat.mod_eq_of_lt (by omega), if_pos (by omega)]
  -- the page is written before the lookup
  have hlv := A.loc
  rw [if_neg (by decide)] at hlv
  obtain ⟨g', z, u, f1, I, f3, f4, f5, f6, f7, f8, f9, f10⟩ := A.tab.inv.flush hv (by decide) A.tab.opn (fun _ => Or.inl trivial)
  have hes := A.tab.ents.append f3 f4
  have hph : VPh demoB u := by
    have := A.ph.flush hv rfl
    rw [f1] at this
    exact this
  have hnx := A.next
  obtain ⟨e, e1, e2, e3, e4⟩ := A.ents (2 ^ 26 - 4) (by decide)
  obtain ⟨e', n1, n2, n3, n4⟩ := A.ents (2 ^ 26) (by decide)
  rw [← f4] at e1 n1
  have hcap : demoB.vcap = 56 := rfl
  have hun : u.next = 2 ^ 26 + 1 := by
    have := (hes.ok e' n1).fin_le
    unfold Ent.fin at this
    rw [← f9, n3, n4, bytesOf_length, hcap] at this
    omega
  have hsync : VSync u := hph.sync (Or.inr (by rw [hun]; decide)) (by decide)
  have hav : u.avail = 1 := by
    have h2 := hph.dvd
    rcases hph.cached with ⟨h, -⟩ | ⟨-, h, -⟩
    · rw [hun] at h
      have : demoB.numVar = 6 := rfl
      omega
    · rw [hun, show demoB.numVar = 6 from rfl, show demoB.B = 2 from rfl] at h2
      rw [show demoB.B = 2 from rfl] at h
      omega
  have hvb : vbase demoB u = 2 ^ 26 - 4 := by
    unfold vbase
    rw [hun, hav]
    rfl
  have hvm : g'.vmin = 2 ^ 26 - 4 := by
    rcases I.lim.2 with ⟨h, -⟩ | ⟨-, h2, h3, -⟩
    · rw [h, hvb]
    · exfalso
      rw [h2] at h3
      simp at h3
  -- the record found there and the record looked for
  have hmin := I.min_le hv hes n1
  have hle : u.minRec % 256 ^ demoB.keySize ≤ 2 ^ 26 + 1 := by
    rw [← n2]
    apply hmin.1.mpr
    rw [hvm, n4, hcap]
    decide
  have eo := hes.ok e e1
  have eo' : EntOk demoB g'.s ⟨2 ^ 26 + 1, e.a, e.bs⟩ := ⟨eo.len, eo.fits, eo.here⟩
  have hfin : e.a + 4 + e.bs.length ≤ u.next * demoB.vcap := by
    rw [e3, e4, bytesOf_length, hun, hcap]
    decide
  have hq : e.a / demoB.vcap = 2 ^ 26 - 4 := by rw [e4, hcap]; decide
  have hadr : vaddr demoB e.a % (demoB.numVar * demoB.pageSize) = 8 := by rw [e4]; decide
  obtain ⟨-, hsetup⟩ := setup_core (d := { d with rbuf := d.wbuf }) hv hok.cmp hsync eo' (by simp only; decide) (t := 0)
    ⟨fun _ => Nat.zero_le _, fun _ => hle⟩ hmin.2 (fun _ => I.holds hv (by rw [hvm]; exact le_of_eq hq.symm) (by simp only; omega)) (i := i)
    (by simp only; rw [hloc, hadr])
  obtain ⟨u1, st, s1, s2, s3, s4, s5, s6⟩ := hsetup (Nat.zero_le _)
  simp only at s1 s4 s6
  have hoff := setupStream_lt (by decide) s1
  have hsame : u1.next = u.next := by rw [s2]
  have hholds : Holds demoB u1 g'.s (e.a + 4) e.bs.length := by
    have := I.holds hv (q := e.a + 4) (n := e.bs.length) (by rw [hvm, e4, hcap]; decide) hfin
    intro j j1 j2
    obtain ⟨p, p1, p2⟩ := this j j1 j2
    exact ⟨p, by rw [s2]; exact p1, p2⟩
  obtain ⟨u2, t1, -, -⟩ := readAll_core hv s3 eo hholds s4 s5 s6
  have hsmall : st.off + (st.total - st.read) * (1 + demoB.vhdr) < 2 ^ 32 := by
    rw [s4, s5, e3, bytesOf_length]
    have : demoB.numVar * demoB.pageSize = 384 := rfl
    have : demoB.vhdr = 8 := rfl
    omega
  refine ⟨{ d with rbuf := d.wbuf }, u2.word, ?_⟩
  unfold stepV32 getVar32
  simp only [show demoB.useVdata = true from rfl, if_true, hsb, Res.ok_bind]
  rw [if_pos (by omega), if_neg (by omega), flushVar_word (pageAgree_dvd demoB (by decide) _), f1]
  simp only [Int.toNat_natCast]
  rw [setupStream_small (by decide) (by decide) _ _ _ (Or.inr (by simp only; rw [hloc]; decide)), s1]
  simp only [wordSetup, Res.ok_bind]
  rw [readAll_small (by decide) _ _ hsmall, t1, e3]
  rfl

/-- C72 is false.  Pages of 64 bytes, 6 variable pages: a client inserts 2^26 + 1 records with ascending keys, each with
50 bytes of variable data; all inserts succeed.  Looking up the last record then succeeds as well, but the variable data
read is that of another record: it was inserted with the bytes `bytesOf (2 ^ 26)` = 0, 1, 2, ... and the bytes read are
`bytesOf (2 ^ 26 - 4)` = 252, 253, .... -/
theorem C72_false_other_data (x : Idx) : ∃ d v d' v' a,
    runOpsV32 demoB demoB0 x demoVarB0 (putsTo (2 ^ 26 + 1)) = .ok (d, x, v) ∧
    stepV32 demoB d x v (.getVar (2 ^ 26 + 1)) = .ok (d', x, v', .gotVar 0 (some a) (some (bytesOf (2 ^ 26 - 4)))) ∧
    putOf (2 ^ 26) = .put (2 ^ 26 + 1) a (some (bytesOf (2 ^ 26))) ∧ bytesOf (2 ^ 26 - 4) ≠ bytesOf (2 ^ 26) := by
  obtain ⟨d, v, l, g, h, A⟩ := after_puts x (2 ^ 26) (by decide)
  have hloc := A.loc
  rw [if_neg (by decide)] at hloc
  obtain ⟨h1, -⟩ := runOpsV_word (c := demoB) (by decide) (by decide) (putsTo (2 ^ 26)) demoB0 d x x demoVarB0 v (by
    intro op hop
    unfold putsTo at hop
    obtain ⟨i, -, rfl⟩ := List.mem_map.mp hop
    trivial) h (by omega)
  obtain ⟨d1, v1, l1, g1, c1, ⟨i, i1, i2, i3, i4, i5⟩, c2, d2, A2⟩ := crossing x A
  obtain ⟨d3, v3, e⟩ := after_crossing x A2 i1 i2 i3 i5 c2
  refine ⟨d1, v1.word, d3, v3, _, ?_, e, ?_, by decide⟩
  · rw [putsTo_succ, runOpsV32_snoc, h1]
    simp only [Res.ok_bind, c1]
  · rw [i4]; rfl

/-- C72 is false: a file of exactly 4 GiB.  The size of the file, a 32-bit product, is 0 and the location of the first
variable data is computed modulo 0, whatever is inserted into whatever state. -/
theorem C72_false_full_size (c : Cfg) (hu : c.useVdata = true) (hF : c.numVar * c.pageSize = 2 ^ 32) (d : Data) (x : Idx) (v : Var)
    (k : Nat) (a bs : List Byte) : stepV32 c d x v (.put k a (some bs)) = .ub := by
  unfold stepV32 putVar32 varLoc32 Cfg.inFile
  simp only [hu, if_true, hF]
  rfl

end EDB
