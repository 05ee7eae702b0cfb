import Verif.Proofs.VarReopen
import Verif.Proofs.VarRecover
import Verif.Proofs.RlcReopen

/-! Helper lemmas: the variable data file of a table with record-level consistency.  Every insert starts and ends at the
start of a variable page. -/

namespace EDB

open Spec (Log VOp VOut)

/-- The first page has a key (or is not written yet). -/
def Mk (c : Cfg) (f : Nat → Option Page) : Prop := ∀ p, f 0 = some p → vkey c p ≠ 0

/-- The file consists of the first `w` pages, which hold the stream `s` with the data `es`. -/
structure VDisk (c : Cfg) (es : List Ent) (s : List Byte) (w : Nat) (f : Nat → Option Page) : Prop where
  len : s.length = w * c.vcap
  lt : w < c.numVar
  page : ∀ j, j < w → ∃ p, f j = some p ∧ (∀ o, o < c.vcap → p (c.vhdr + o) = s.getD (j * c.vcap + o) 0) ∧ pageId p = j
  rest : ∀ j, w ≤ j → f j = none
  mark : Mk c f
  ok : ∀ e ∈ es, EntOk c s e
  sorted : es.Pairwise (fun e e' => e.key < e'.key ∧ e.fin ≤ e'.a)

section
variable {c : Cfg} {lo K : Nat} {E : Mode} {d : Data} {v v' : Var} {g g' : Gh} {s : List Byte} {es : List Ent} {w : Nat} {f : Nat → Option Page}

/-! ### Keys in page headers -/

theorem writeVar_loc (v : Var) : (writeVar c v).1.loc = v.loc := by
  have hst : ∀ u : Var, (storeVar c u).1.loc = u.loc := by
    intro u
    unfold storeVar
    simp only
    split_ifs <;> rfl
  have hrd : ∀ (u : Var) (ph : Nat), (readVar u ph).1.loc = u.loc := by
    intro u ph
    unfold readVar
    split
    · rfl
    · split <;> rfl
  unfold writeVar
  simp only
  split_ifs
  · rw [hst]; exact hrd _ _
  · exact hrd _ _
  · rfl
  · exact hst v

theorem mark_write (hv : c.VFile) (v : Var) (h1 : (writeVar c v).1.next + (writeVar c v).1.avail = v.next + v.avail)
    (hk : vkey c v.wbuf ≠ 0) (hm : Mk c v.dev.file) : Mk c (writeVar c v).1.dev.file := by
  have hB := hv.B0
  have ha : v.avail ≠ 0 := by
    intro ha
    have hG := Grow.write hv v
    unfold writeVar at h1
    simp only at h1
    rw [if_pos ha] at h1
    have hok : (v.dev.erase c (v.next % c.numVar) (v.next % c.numVar + c.B)).2 = true := by
      simp [Dev.erase, hv.io]
    simp only [hok, if_true] at h1
    generalize hr : readVar { v with dev := (v.dev.erase c (v.next % c.numVar) (v.next % c.numVar + c.B)).1, avail := v.avail + c.B }
      ((v.next % c.numVar + c.B - 1) % c.numVar) = r at h1
    have h2 : r.1.next = v.next ∧ r.1.avail = v.avail + c.B := by
      unfold readVar at hr
      split at hr
      · rw [← hr]; exact ⟨rfl, rfl⟩
      · split at hr <;> (rw [← hr]; exact ⟨rfl, rfl⟩)
    split_ifs at h1
    · rw [storeVar_eq hv] at h1
      simp only at h1
      omega
    · simp only at h1
      omega
  unfold writeVar
  simp only
  rw [if_neg ha, storeVar_eq hv]
  intro p hp
  simp only at hp
  split_ifs at hp with h0
  · cases hp
    rw [vkey_out]; exact hk
  · exact hm p hp

theorem mark_roll (hv : c.VFile) {key : Nat} (h1 : (rollVar c key v).next + (rollVar c key v).avail = v.next + v.avail)
    (hk : vkey c v.wbuf ≠ 0) (hm : Mk c v.dev.file) : Mk c (rollVar c key v).dev.file := by
  unfold rollVar at h1 ⊢
  split_ifs at h1 ⊢ with h
  · exact mark_write hv v h1 hk hm
  · exact hm

theorem roll_key (hv : c.VFile) {key : Nat} (h0 : key ≠ 0) (hlt : key < 256 ^ c.keySize) (hk : vkey c v.wbuf ≠ 0)
    (ho : v.loc % c.pageSize = 0 ∨ c.vhdr ≤ v.loc % c.pageSize) :
    vkey c (rollVar c key v).wbuf ≠ 0 ∧ c.vhdr ≤ (rollVar c key v).loc % c.pageSize := by
  have hp := hv.page
  unfold rollVar
  split_ifs with h
  · refine ⟨?_, ?_⟩
    · show vkey c (wr (fun _ => 0) 4 (leBytes c.keySize key)) ≠ 0
      rw [zeroKey_key hlt]; exact h0
    · show c.vhdr ≤ ((writeVar c v).1.loc + c.vhdr) % c.pageSize
      rw [writeVar_loc, Nat.add_mod, h, Nat.zero_add, Nat.mod_mod, Nat.mod_eq_of_lt (by omega)]
  · exact ⟨hk, ho.resolve_left h⟩

theorem mark_chunks (hv : c.VFile) {key : Nat} (h0 : key ≠ 0) (hlt : key < 256 ^ c.keySize) : ∀ (f : Nat) (v : Var) (bs : List Byte) (v' : Var),
    putChunks c key f v bs = .ok v' → vkey c v.wbuf ≠ 0 → c.vhdr ≤ v.loc % c.pageSize → v'.next + v'.avail = v.next + v.avail →
    Mk c v.dev.file → Mk c v'.dev.file ∧ vkey c v'.wbuf ≠ 0 := by
  intro f
  induction f with
  | zero => intro v bs v' h; simp [putChunks] at h
  | succ f ih =>
    intro v bs v' e hk ho hs hm
    have hp := hv.page
    unfold putChunks at e
    split_ifs at e with hb
    · cases e; exact ⟨hm, hk⟩
    · have hlm := Nat.mod_lt v.loc (show 0 < c.pageSize by omega)
      have hvh : 4 ≤ c.vhdr := by unfold Cfg.vhdr; omega
      obtain ⟨n, hn⟩ : ∃ n, n = min (c.pageSize - v.loc % c.pageSize) bs.length := ⟨_, rfl⟩
      simp only [← hn] at e
      obtain ⟨u, hu⟩ : ∃ u : Var, u = { v with wbuf := wr v.wbuf (v.loc % c.pageSize) (bs.take n), loc := v.loc + n } := ⟨_, rfl⟩
      rw [← hu] at e
      have hku : vkey c u.wbuf ≠ 0 := by
        rw [hu]
        simp only
        rw [vkey_wr _ _ _ ho]; exact hk
      have hou : u.loc % c.pageSize = 0 ∨ c.vhdr ≤ u.loc % c.pageSize := by
        rw [hu]
        simp only
        rw [Nat.add_mod]
        rcases Nat.lt_or_ge (v.loc % c.pageSize + n) c.pageSize with h | h
        · right
          rw [Nat.mod_eq_of_lt (show n < c.pageSize by omega), Nat.mod_eq_of_lt h]
          omega
        · left
          have : v.loc % c.pageSize + n = c.pageSize := by omega
          rw [Nat.mod_eq_of_lt (show n < c.pageSize by omega), this, Nat.mod_self]
      have hus : u.next = v.next ∧ u.avail = v.avail ∧ u.dev = v.dev := by rw [hu]; exact ⟨rfl, rfl, rfl⟩
      obtain ⟨r1, r2⟩ := roll_key hv h0 hlt hku hou
      have m1 := (Grow.roll hv u key).mono
      have m2 := (Grow.chunks hv key _ _ _ _ e).mono
      refine ih _ _ _ e r1 r2 (by omega) (mark_roll hv (by omega) hku (by rw [hus.2.2]; exact hm))

theorem mark_store (hv : c.VFile) {key : Nat} (h0 : key ≠ 0) (hlt : key < 256 ^ c.keySize) {bs : List Byte}
    (e : storeBytes c v key bs = .ok v') (ho : v.loc % c.pageSize = c.vhdr) (hs : v'.next + v'.avail = v.next + v.avail)
    (hm : Mk c v.dev.file) : Mk c v'.dev.file ∧ vkey c v'.wbuf ≠ 0 := by
  have hp := hv.page
  have hps := hv.ps
  have hcap := hv.cap4
  unfold storeBytes at e
  obtain ⟨v1, hv1⟩ : ∃ v1, v1 = (if v.minRec = 2 ^ 64 - 1 then { v with minRec := setLow c.keySize v.minRec key } else v) :=
    ⟨_, rfl⟩
  have s1 : v1.wbuf = v.wbuf ∧ v1.loc = v.loc ∧ v1.next = v.next ∧ v1.dev = v.dev ∧ v1.avail = v.avail := by
    rw [hv1]; split_ifs <;> exact ⟨rfl, rfl, rfl, rfl, rfl⟩
  simp only [← hv1] at e
  rw [s1.2.1, ho, if_neg (by omega)] at e
  obtain ⟨u, hu⟩ : ∃ u : Var, u = { v1 with wbuf := wr (wr v1.wbuf 4 (leBytes c.keySize key)) c.vhdr (leBytes 4 bs.length), loc := v.loc + 4 } := ⟨_, rfl⟩
  rw [← hu] at e
  have hku : vkey c u.wbuf ≠ 0 := by
    rw [hu]
    simp only
    rw [vkey_wr _ _ _ (le_refl _), zeroKey_key hlt]; exact h0
  have hou : u.loc % c.pageSize = 0 ∨ c.vhdr ≤ u.loc % c.pageSize := by
    rw [hu]
    simp only
    rw [Nat.add_mod, ho]
    rcases Nat.lt_or_ge (c.vhdr + 4) c.pageSize with h | h
    · right
      rw [Nat.mod_eq_of_lt (show 4 < c.pageSize by omega), Nat.mod_eq_of_lt h]
      omega
    · left
      have hvh : 4 ≤ c.vhdr := by unfold Cfg.vhdr; omega
      have : c.vhdr + 4 = c.pageSize := by omega
      rw [Nat.mod_eq_of_lt (show 4 < c.pageSize by omega), this, Nat.mod_self]
  have hus : u.next = v.next ∧ u.avail = v.avail ∧ u.dev = v.dev := by rw [hu]; exact ⟨s1.2.2.1, s1.2.2.2.2, s1.2.2.2.1⟩
  obtain ⟨r1, r2⟩ := roll_key hv h0 hlt hku hou
  have m1 := (Grow.roll hv u key).mono
  have m2 := (Grow.chunks hv key _ _ _ _ e).mono
  exact mark_chunks hv h0 hlt _ _ _ _ e r1 r2 (by omega) (mark_roll hv (by omega) hku (by rw [hus.2.2]; exact hm))

theorem mark_flush (hv : c.VFile) (v : Var) (hs : (flushVar c v).1.next + (flushVar c v).1.avail = v.next + v.avail) (hk : vkey c v.wbuf ≠ 0)
    (hm : Mk c v.dev.file) : Mk c (flushVar c v).1.dev.file := by
  have hw := mark_write hv v
  unfold flushVar at hs ⊢
  split_ifs at hs ⊢
  · exact hm
  · generalize writeVar c v = r at hs hw
    obtain ⟨v1, o⟩ := r
    cases o with
    | none => exact hw hs hk hm
    | some _ => exact hw hs hk hm

/-! ### Reads -/

theorem setup_reads {key i : Nat} {r : Var × Int × Option Stream} (hs : VSync v) (e : setupStream c d v key i = .ok r) :
    VSame v r.1 ∧ VSync r.1 := by
  unfold setupStream at e
  simp only at e
  have hr := fun ph => readVar_sync hs ph
  split_ifs at e
  · cases e; exact ⟨rfl, hs⟩
  · cases e; exact ⟨rfl, hs⟩
  · cases e; exact ⟨(hr _).1, (hr _).2.1⟩
  · cases e; exact ⟨(hr _).1, (hr _).2.1⟩
  · cases e; exact ⟨(hr _).1, (hr _).2.1⟩

theorem loop_reads (len : Nat) : ∀ (f : Nat) (v : Var) (st : Stream) (pg : Nat) (acc : List Byte) (r : Var × Stream × List Byte),
    VSync v → streamLoop c len f v st pg acc = .ok r → VSame v r.1 ∧ VSync r.1 := by
  intro f
  induction f with
  | zero => intro v st pg acc r _ e; simp [streamLoop] at e
  | succ f ih =>
    intro v st pg acc r hs e
    have hr := fun ph => readVar_sync hs ph
    unfold streamLoop at e
    simp only at e
    split_ifs at e
    · obtain ⟨h1, h2⟩ := ih _ _ _ _ _ (hr _).2.1 e
      exact ⟨(hr _).1.trans h1, h2⟩
    · cases e; exact ⟨(hr _).1, (hr _).2.1⟩
    · exact ih _ _ _ _ _ hs e
    · cases e; exact ⟨rfl, hs⟩

theorem stream_reads {st : Stream} {n : Nat} {r : Var × Stream × List Byte} (hs : VSync v) (e : streamRead c v st n = .ok r) :
    VSame v r.1 ∧ VSync r.1 := by
  have hr := fun ph => readVar_sync hs ph
  unfold streamRead at e
  simp only at e
  split_ifs at e
  · obtain ⟨h1, h2⟩ := loop_reads _ _ _ _ _ _ _ (hr _).2.1 e
    exact ⟨(hr _).1.trans h1, h2⟩
  · cases e; exact ⟨(hr _).1, (hr _).2.1⟩

theorem readAll_reads {st : Option Stream} {r : Var × Option (List Byte)} (hs : VSync v) (e : readAll c v st = .ok r) :
    VSame v r.1 ∧ VSync r.1 := by
  cases st with
  | none => simp only [EDB.readAll, Res.ok.injEq] at e; rw [← e]; exact ⟨rfl, hs⟩
  | some st =>
    simp only [EDB.readAll] at e
    obtain ⟨⟨v1, s1, b1⟩, e1, e2⟩ := Res.bind_eq_ok e
    simp only [Res.ok.injEq] at e2
    rw [← e2]
    exact stream_reads hs e1

theorem flushVar_rest (h : v.loc % c.pageSize = c.vhdr) : flushVar c v = (v, 0) := by
  unfold flushVar; rw [if_pos h]

theorem getVar_reads {key : Nat} {r : Data × Var × Int × Option (List Byte) × Option Stream} (hv : c.VFile) (hs : VSync v)
    (ho : v.loc % c.pageSize = c.vhdr) (e : getVar c d v key = .ok r) : SameButCache d r.1 ∧ VSame v r.2.1 ∧ VSync r.2.1 := by
  simp only [EDB.getVar, hv.vdata, if_true, flushVar_rest ho] at e
  obtain ⟨⟨r1, out⟩, -, e2⟩ := Res.bind_eq_ok e
  simp only at e2
  split_ifs at e2
  · obtain ⟨⟨v1, s1, st1⟩, e3, e4⟩ := Res.bind_eq_ok e2
    simp only [Res.ok.injEq] at e4
    rw [← e4]
    exact ⟨⟨rfl, rfl, rfl, rfl, rfl, rfl, rfl, rfl⟩, setup_reads hs e3⟩
  · obtain ⟨⟨d1, r2, out2⟩, e3, e4⟩ := Res.bind_eq_ok e2
    have hd := get_same e3
    simp only at e4
    split_ifs at e4
    · obtain ⟨i, -, e5⟩ := Res.bind_eq_ok e4
      cases i with
      | none => cases e5
      | some i =>
        simp only at e5
        split_ifs at e5
        obtain ⟨⟨v1, s1, st1⟩, e6, e7⟩ := Res.bind_eq_ok e5
        simp only [Res.ok.injEq] at e7
        rw [← e7]
        exact ⟨hd, setup_reads hs e6⟩
    · cases e4
      exact ⟨hd, rfl, hs⟩

theorem nextVar_reads {x : Idx} {it : Iter} {r : Data × Idx × Var × Iter × Option ((Nat × List Byte) × Option Stream)} (hv : c.VFile) (hs : VSync v)
    (ho : v.loc % c.pageSize = c.vhdr) (e : nextVar c d x v it = .ok r) : SameButCache d r.1 ∧ VSame v r.2.2.1 ∧ VSync r.2.2.1 := by
  simp only [EDB.nextVar, hv.vdata, if_true, flushVar_rest ho] at e
  obtain ⟨⟨d1, x1, it1, out⟩, e1, e2⟩ := Res.bind_eq_ok e
  have hd : SameButCache d d1 := nextLoop_same _ _ _ _ _ _ _ _ e1
  simp only at e2
  cases out with
  | none => cases e2; exact ⟨hd, rfl, hs⟩
  | some y =>
    simp only [ite_self] at e2
    obtain ⟨⟨v1, s1, st1⟩, e3, e4⟩ := Res.bind_eq_ok e2
    simp only [Res.ok.injEq] at e4
    rw [← e4]
    refine ⟨?_, setup_reads hs e3⟩
    simp only
    split_ifs
    · exact ⟨hd.dev, hd.wbuf, hd.next, hd.min, hd.avail, hd.spl, hd.rlcNext, hd.rlcStart⟩
    · exact hd

/-! ### The file -/

theorem VInv.flag (I : VInv c E lo K g v) (b : Bool) : VInv c E lo K g { v with hasVar := b } := by
  have V := I.sim
  exact ⟨⟨V.lo, V.hi, V.loc, V.klen, V.dvd, V.sum, V.tight, V.stored, V.buf, V.cacheN, V.cache, V.only⟩, I.lim,
    fun hE => ⟨(I.keys hE).pages, (I.keys hE).tops, (I.keys hE).buf, (I.keys hE).last, (I.keys hE).jr.grow I.sim.lo (List.prefix_refl _) rfl rfl rfl⟩, I.minOk, I.wrap, I.era, I.bound⟩

theorem VInv.rest (hv : c.VFile) (I : VInv c E lo K g v) (hl : g.s.length = v.next * c.vcap) : v.loc % c.pageSize = c.vhdr := by
  have hcap := hv.cap4
  have e : (v.next + 1) * c.vcap = v.next * c.vcap + c.vcap := by ring
  have := (I.sim.off hv (by omega)).1
  omega

/-- The file found when power is back. -/
theorem VDisk.inv (D : VDisk c es s w f) {vn : Var} (hnext : vn.next = w) (hwb : vn.wbuf = fun _ => 0)
    (hloc : vn.loc = w * c.pageSize + c.vhdr) (hav : vn.avail = c.numVar - w) (hs : VSync vn) (hf : vn.dev.file = f)
    (hrec : (es = [] ∧ vn.minRec = 2 ^ 64 - 1) ∨ (vn.minRec % 256 ^ c.keySize + 1 < K ∧ vn.minRec % 256 ^ c.keySize ≤ lo ∧
      ∀ e ∈ es, vn.minRec % 256 ^ c.keySize ≤ e.key)) (hb : ∀ e ∈ es, e.key + 1 < K) :
    ∃ ks, VInv c False lo K ⟨0, s, ks, es⟩ vn := by
  have hw := D.lt
  have hlen := D.len
  have hmod : ∀ j, j < w → j % c.numVar = j := fun j hj => Nat.mod_eq_of_lt (by omega)
  have hb0 : vbase c vn = 0 := by unfold vbase; omega
  refine ⟨(List.range w).map (fun j => match f j with | some p => vkey c p | none => 0), ?_, ⟨le_refl _, Or.inl ⟨hb0.symm, Or.inl hb0⟩⟩, fun h => h.elim, ?_, Or.inl rfl, fun h => h.elim, hb⟩
  · rw [hb0]
    refine ⟨by simp only [hlen, hnext]; exact le_refl _, ?_, by simp only [hlen, hnext, hloc, Nat.sub_self]; exact Round.refl _ _, by simp [hnext], dvd_zero _, by omega,
      Or.inl rfl, ?_, ?_, ?_, ?_, ?_⟩
    · simp only [hlen, hnext]
      exact Nat.mul_le_mul_right _ (by omega)
    · intro j _ hj
      rw [hnext] at hj
      obtain ⟨p, p1, p2, -⟩ := D.page j hj
      refine ⟨p, by rw [hmod j hj, hf]; exact p1, p2, ?_⟩
      simp only [List.getD_eq_getElem?_getD, List.getElem?_map, List.getElem?_range hj, Option.map_some, Option.getD_some, p1]
    · intro o ho
      rw [hwb, hnext]
      simp only [List.getD_eq_getElem?_getD]
      rw [List.getElem?_eq_none (by omega)]
      rfl
    · intro ph hph
      have h1 := hs ph hph
      rw [hf] at h1
      by_cases h2 : ph < w
      · omega
      · rw [D.rest ph (by omega)] at h1; cases h1
    · intro ph hph j _ _ _
      exact Or.inl (hs ph hph)
    · intro ph p hp
      rw [hf] at hp
      by_cases h2 : ph < w
      · omega
      · rw [D.rest ph (by omega)] at hp; cases hp
  · unfold MinOk
    rcases hrec with ⟨h1, h2⟩ | ⟨h1, h2, h3⟩
    · exact Or.inl ⟨rfl, h1, h2⟩
    · exact Or.inr (Or.inl ⟨rfl, h1, Or.inl h2, h3⟩)

theorem VDisk.filter (D : VDisk c es s w f) (P : Ent → Bool) : VDisk c (es.filter P) s w f :=
  ⟨D.len, D.lt, D.page, D.rest, D.mark, fun e he => D.ok e (List.mem_filter.mp he).1, D.sorted.filter _⟩

theorem VDisk.entsOk {vm : Nat} {ks : List Nat} (D : VDisk c es s w f) : EntsOk c ⟨vm, s, ks, es⟩ := ⟨D.ok, D.sorted⟩

theorem VDisk.fin (D : VDisk c es s w f) {e : Ent} (he : e ∈ es) : e.fin ≤ w * c.vcap := by
  rw [← D.len]; exact (D.ok e he).fin_le

theorem VDisk.nil (D : VDisk c es s 0 f) : es = [] := by
  rw [List.eq_nil_iff_forall_not_mem]
  intro e he
  have := D.fin he
  unfold Ent.fin at this
  omega

theorem VDisk.plain (D : VDisk c es s w f) : Plain f w :=
  ⟨fun j hj => by obtain ⟨p, p1, -, p3⟩ := D.page j hj; exact ⟨p, p1, p3⟩, D.rest⟩

/-- The first pages of what an operation leaves. -/
theorem VDisk.step (hv : c.VFile) (D : VDisk c es s v.next v.dev.file) (I : VInv c False lo K g v) (I' : VInv c False lo K g' v')
    (G : Grow c v v') (hlt : v'.next < c.numVar) (hm : Mk c v'.dev.file) (h1 : v.next ≤ w) (h2 : w ≤ v'.next)
    (hU : Upto f w v'.dev.file) {es' : List Ent} (hok : ∀ e ∈ es', EntOk c (g'.s.take (w * c.vcap)) e)
    (hsort : es'.Pairwise (fun e e' => e.key < e'.key ∧ e.fin ≤ e'.a)) : VDisk c es' (g'.s.take (w * c.vcap)) w f := by
  have hsum := I.sum0 (I.wrap.resolve_right id)
  have hsum' := I'.sum0 (I'.wrap.resolve_right id)
  have h32 : c.numVar < 2 ^ 32 := lt_of_le_of_lt (Nat.le_mul_of_pos_right _ (by have := hv.ps; have := hv.cap4; omega)) hv.mem
  obtain ⟨ps, g1, g2, g3, g4⟩ := G.grow (by omega) (by omega)
  have hst := I'.sim.stored
  rw [I'.base0 (I'.wrap.resolve_right id)] at hst
  have hlo := I'.sim.lo
  have hmul := Nat.mul_le_mul_right c.vcap h2
  have hlen : (g'.s.take (w * c.vcap)).length = w * c.vcap := by rw [List.length_take]; omega
  refine ⟨hlen, by omega, ?_, ?_, ?_, hok, hsort⟩
  · intro j hj
    obtain ⟨p, p1, p2, -⟩ := hst j (Nat.zero_le _) (by omega)
    rw [Nat.mod_eq_of_lt (by omega)] at p1
    refine ⟨p, by rw [hU, if_pos hj]; exact p1, ?_, ?_⟩
    · intro o ho
      rw [p2 o ho]
      simp only [List.getD_eq_getElem?_getD]
      have h3 := Nat.mul_le_mul_right c.vcap (show j + 1 ≤ w by omega)
      rw [Nat.add_mul, Nat.one_mul] at h3
      rw [List.getElem?_take_of_lt (by omega)]
    · rw [g3] at p1
      unfold placed at p1
      by_cases hjn : j < v.next
      · rw [if_neg (by omega)] at p1
        obtain ⟨q, q1, -, q3⟩ := D.page j hjn
        rw [p1] at q1
        cases q1
        exact q3
      · have hi : j - v.next < ps.length := by omega
        rw [if_pos (by omega), List.getElem?_eq_getElem hi] at p1
        cases p1
        have := g4 _ hi
        rw [show v.next + (j - v.next) = j by omega, Nat.mod_eq_of_lt (by omega)] at this
        exact this
  · intro j hj
    rw [hU, if_neg (by omega)]
  · intro p hp
    rw [hU] at hp
    split_ifs at hp
    exact hm p hp

/-- Storing one piece of data, which starts and ends at the start of a page. -/
theorem VDisk.store (hv : c.VFile) (hK : K ≤ 256 ^ c.keySize) (I : VInv c False lo K g v) (D : VDisk c g.es g.s v.next v.dev.file) {key : Nat}
    {bs : List Byte} (h0 : key ≠ 0) (hkK : key + 1 < K) (hlow : lo ≤ key) (hgt : ∀ e ∈ g.es, e.key < key) (hlen : bs.length < 2 ^ 32)
    (hroom : v.next + (4 + bs.length) / c.vcap + 1 < c.numVar) :
    ∃ v2 v3 g3, storeBytes c v key bs = .ok v2 ∧ flushVar c v2 = (v3, 0) ∧ VInv c False lo K g3 v3 ∧
      VDisk c g3.es g3.s v3.next v3.dev.file ∧ g3.es = g.es ++ [newEnt g key bs] ∧
      ∀ j, ∃ s w, VDisk c g.es s w (cutFrom c v.dev v3.dev j).file := by
  have hcap := hv.cap4
  have hl := D.len
  have ev : (v.next + 1) * c.vcap = v.next * c.vcap + c.vcap := by ring
  have hdiv : (g.s.length + 4 + bs.length) / c.vcap = v.next + (4 + bs.length) / c.vcap := by
    rw [hl, Nat.add_assoc, Nat.mul_comm, Nat.mul_add_div (by omega)]
  obtain ⟨v2, g2, a1, a2, a3, a4, a5, -, a7, -, -⟩ := I.storeBytes hv hK hkK (by omega) hlow hgt
    (Or.inr (by rw [hdiv]; omega)) (bs := bs)
  have hg2 : g2.s.length = g.s.length + 4 + bs.length := by
    rw [a4]; simp only [List.length_append, leBytes_length]
  have hn2 : v2.next = v.next + (4 + bs.length) / c.vcap := by
    have := div_page a2.sim.lo (show g2.s.length < (v2.next + 1) * c.vcap from a3)
    rw [← this, hg2, hdiv]
  obtain ⟨g3, z, v3, b1, b2, b3, b4, -, b6, b7, -, b9, b10⟩ := a2.flush hv hK a3 (fun _ => Or.inr (by omega))
  have hG : Grow c v v3 := by
    have := Grow.flush hv v2
    rw [b1] at this
    exact (Grow.storeBytes hv a1).trans this
  have s1 := I.sum0 (I.wrap.resolve_right id)
  have s2 := a2.sum0 (a2.wrap.resolve_right id)
  have s3 := b2.sum0 (b2.wrap.resolve_right id)
  obtain ⟨m1, m2⟩ := mark_store hv h0 (by omega) a1 (I.rest hv hl) (by omega) D.mark
  have m3 : Mk c v3.dev.file := by
    have := mark_flush hv v2 (by rw [b1]; show v3.next + v3.avail = _; omega) m2 m1
    rw [b1] at this
    exact this
  have hes : g3.es = g.es ++ [newEnt g key bs] := by rw [b4, a5]
  have hs3 : g3.s = g.s ++ (leBytes 4 bs.length ++ bs ++ List.replicate z 0) := by rw [b3, a4]; simp only [List.append_assoc]
  have hok : ∀ e ∈ g3.es, EntOk c g3.s e := by
    intro e he
    rw [hes] at he
    rcases List.mem_append.mp he with h | h
    · rw [hs3]; exact (D.ok e h).append _
    · rw [List.mem_singleton.mp h]
      refine ⟨hlen, ?_, g.s, List.replicate z 0, rfl, by rw [hs3]; simp only [newEnt, List.append_assoc]⟩
      show g.s.length % c.vcap + 4 ≤ c.vcap
      rw [hl, Nat.mul_mod_left]
      omega
  have hsort : g3.es.Pairwise (fun e e' => e.key < e'.key ∧ e.fin ≤ e'.a) := by
    rw [hes, List.pairwise_append]
    refine ⟨D.sorted, List.pairwise_singleton _ _, ?_⟩
    intro e he e' he'
    rw [List.mem_singleton.mp he']
    exact ⟨hgt e he, (D.ok e he).fin_le⟩
  have hlt : v3.next < c.numVar := by omega
  refine ⟨v2, v3, g3, a1, b1, b2, ?_, hes, ?_⟩
  · have ht : g3.s.take (v3.next * c.vcap) = g3.s := List.take_of_length_le (by omega)
    have := VDisk.step hv D I b2 hG hlt m3 (w := v3.next) (by omega) (le_refl _) (f := v3.dev.file) (by
      intro ph
      by_cases h : ph < v3.next
      · rw [if_pos h]
      · rw [if_neg h]
        cases hp : v3.dev.file ph with
        | none => rfl
        | some p => exact absurd (b2.sim.only ph p hp).2 h) (es' := g3.es) (by rw [ht]; exact hok) hsort
    rw [ht] at this
    exact this
  · intro j
    obtain ⟨-, -, hU⟩ := hG.upto (by omega) (by omega) (fun ph p hp => (I.sim.only ph p hp).2)
    obtain ⟨w, w1, w2, w3⟩ := hU j
    refine ⟨_, w, VDisk.step hv D I b2 hG hlt m3 w1 w2 w3 (es' := g.es) ?_ D.sorted⟩
    intro e he
    have hf := D.fin he
    have := Nat.mul_le_mul_right c.vcap w1
    exact (hok e (by rw [hes]; exact List.mem_append_left _ he)).take (by omega)

end

end EDB
