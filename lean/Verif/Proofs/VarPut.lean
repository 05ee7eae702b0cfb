import Verif.Proofs.VarFile
import Verif.Spec.Device

/-! Helper lemmas: storing variable data (`embedDBPutVar`, `embedDBFlushVar`) on the stream of bytes. -/

namespace EDB

/-- A piece of variable data: the key of its record, where its length field starts in the stream, its bytes. -/
structure Ent where
  key : Nat
  a : Nat
  bs : List Byte

/-- Ghost state of the variable file. -/
structure Gh where
  /-- data that starts on an earlier page is refused -/
  vmin : Nat
  /-- the stream -/
  s : List Byte
  /-- header keys of the pages written -/
  ks : List Nat
  /-- the data stored, oldest first -/
  es : List Ent

/-- How the variable file is used: whether it may wrap around; the page below which data is refused since the file was
taken over on recovery (0: it was not, or it had not wrapped); and a bound of the keys named by pages taken over whose records
are lost (0: none). -/
structure Mode where
  wrap : Prop
  lim : Nat
  low : Nat

instance : CoeSort Mode Prop := ⟨Mode.wrap⟩
instance : Coe Mode Prop := ⟨Mode.wrap⟩
instance : Coe Prop Mode := ⟨fun p => ⟨p, 0, 0⟩⟩

/-- The first page counted as stored. -/
def vbase (c : Cfg) (v : Var) : Nat := v.next + v.avail - c.numVar

/-- Everything ever written to the file. -/
structure VWrote (c : Cfg) (g : Gh) (v : Var) : Prop where
  count : (Spec.writes v.dev.log).length = v.next
  page : ∀ j, j < v.next → ∃ p, (Spec.writes v.dev.log)[j]? = some (j % c.numVar, p) ∧
    (∀ o, o < c.vcap → p (c.vhdr + o) = g.s.getD (j * c.vcap + o) 0) ∧ vkey c p = g.ks.getD j 0

/-- The header keys say which data starts up to each page. -/
structure VKeys (c : Cfg) (lo low K : Nat) (g : Gh) (v : Var) : Prop where
  pages : ∀ j, j < v.next → g.ks.getD j 0 + 1 < K ∧ ∀ e ∈ g.es, e.a / c.vcap ≤ j ↔ e.key ≤ g.ks.getD j 0
  tops : low ≤ lo ∧ ∀ j, j < v.next → g.ks.getD j 0 < low ∨ ∃ e ∈ g.es, g.ks.getD j 0 = e.key
  buf : (g.s.length = v.next * c.vcap ∧ vkey c v.wbuf = 0) ∨
    ∃ e ∈ g.es, vkey c v.wbuf = e.key ∧ ∀ e' ∈ g.es, e'.key ≤ e.key
  last : ∀ e ∈ g.es, e.a / c.vcap ≤ v.next
  jr : VWrote c g v

/-- What `minVarRecordId` says: nothing, or (nothing having been reclaimed) at most the key of all data, or the key behind
the last data reclaimed.  `lo` is a lower bound of the keys inserted; `minVarRecordId` may be set to it on recovery. -/
def MinOk (c : Cfg) (lo K : Nat) (g : Gh) (v : Var) : Prop :=
  (g.vmin = 0 ∧ g.es = [] ∧ v.minRec = 2 ^ 64 - 1) ∨
  (g.vmin = 0 ∧ v.minRec % 256 ^ c.keySize + 1 < K ∧ (v.minRec % 256 ^ c.keySize ≤ lo ∨ ∃ e ∈ g.es, v.minRec % 256 ^ c.keySize = e.key) ∧
    ∀ e' ∈ g.es, v.minRec % 256 ^ c.keySize ≤ e'.key) ∨
  (0 < g.vmin ∧ v.minRec % 256 ^ c.keySize = g.ks.getD (g.vmin - 1) 0 + 1)

/-- The invariant of the variable file.  `E`: if the file may wrap around, no page without data is ever written and
erasing keeps the contents of a page readable. -/
structure VInv (c : Cfg) (E : Mode) (lo K : Nat) (g : Gh) (v : Var) : Prop where
  sim : VSim c (vbase c v) g.s g.ks v
  lim : E.lim ≤ g.vmin ∧ ((g.vmin = vbase c v ∧ (vbase c v = 0 ∨ v.avail < c.B)) ∨
    (0 < vbase c v ∧ g.vmin = vbase c v + 1 ∧ g.vmin = E.lim ∧ (v.avail < c.B ∨ v.next % c.numVar ≠ 0)))
  keys : E → VKeys c lo E.low K g v
  minOk : MinOk c lo K g v
  wrap : g.vmin = 0 ∨ E
  era : E → c.eraseFx = id
  bound : ∀ e ∈ g.es, e.key + 1 < K

section
variable {c : Cfg} {E : Mode} {lo K : Nat} {g : Gh} {v : Var}

theorem pow_dvd_u64 (h : c.VFile) : 256 ^ c.keySize ∣ 2 ^ 64 := by
  have : (2 : Nat) ^ 64 = 256 ^ 8 := by decide
  rw [this]
  exact Nat.pow_dvd_pow 256 h.key8

theorem setLow_mod (P m k : Nat) (hk : k < P) : (m - m % P + k) % P = k := by
  have e : m - m % P = P * (m / P) := by have := Nat.div_add_mod m P; omega
  rw [e, Nat.mul_add_mod, Nat.mod_eq_of_lt hk]

theorem setLow_succ_mod (h : c.VFile) (m k : Nat) (hk : k + 1 < 256 ^ c.keySize) :
    ((setLow c.keySize m k + 1) % 2 ^ 64) % 256 ^ c.keySize = k + 1 := by
  rw [Nat.mod_mod_of_dvd _ (pow_dvd_u64 h)]
  unfold setLow
  rw [Nat.add_assoc]
  exact setLow_mod _ _ _ hk

theorem VSim.base {m : Nat} {s : List Byte} {ks : List Nat} (V : VSim c m s ks v) : vbase c v = m := by
  have := V.sum
  unfold vbase
  omega

/-- The key of the last piece of data. -/
def IsLast (g : Gh) (key : Nat) : Prop := ∃ e ∈ g.es, key = e.key ∧ ∀ e' ∈ g.es, e'.key ≤ e.key

/-- The buffer holds a page with data. -/
def HasData (c : Cfg) (g : Gh) (v : Var) : Prop := IsLast g (vkey c v.wbuf)

/-- There is room for one more page, or the file may wrap. -/
def RoomFor (c : Cfg) (E : Mode) (n : Nat) : Prop := E ∨ n ≤ c.numVar

theorem VInv.base_le (I : VInv c E lo K g v) : vbase c v ≤ g.vmin ∧ (vbase c v = 0 → g.vmin = 0) := by
  rcases I.lim.2 with ⟨h, -⟩ | ⟨h1, h2, -⟩ <;> omega

/-- Nothing is refused as long as nothing was reclaimed. -/
theorem VInv.base0 (I : VInv c E lo K g v) (h : g.vmin = 0) : vbase c v = 0 := by
  have := I.base_le.1
  omega

theorem VInv.sum0 {W : Prop} (I : VInv c W lo K g v) (h : g.vmin = 0) : v.next + v.avail = c.numVar := by
  have := I.sim.sum
  have := I.base0 h
  omega

theorem VInv.vmin_lt (h : c.VFile) (I : VInv c E lo K g v) (h0 : 0 < g.vmin) : g.vmin - 1 < v.next := by
  have h1 := I.sim.sum
  have h2 := h.two
  have h3 := h.B0
  rcases I.lim.2 with ⟨h4, h5⟩ | ⟨h4, h5, -⟩
  · rcases h5 with h5 | h5 <;> omega
  · rcases I.sim.tight with h6 | h6 <;> omega

theorem VInv.hasData (I : VInv c E lo K g v) (hE : E) (hne : g.s.length ≠ v.next * c.vcap) : HasData c g v := by
  rcases (I.keys hE).buf with h1 | h1
  · exact absurd h1.1 hne
  · exact h1

/-- The limit after a page write. -/
def vlimAfter (c : Cfg) (g : Gh) (v : Var) : Nat := if v.avail = 0 then vbase c v + c.B else g.vmin

theorem VWrote.grow {g' : Gh} {v' : Var} (W : VWrote c g v) (hlo : v.next * c.vcap ≤ g.s.length) (hs : g.s <+: g'.s) (hk : g'.ks = g.ks)
    (hl : v'.dev.log = v.dev.log) (hn : v'.next = v.next) : VWrote c g' v' := by
  refine ⟨by rw [hl, hn]; exact W.count, fun j hj => ?_⟩
  rw [hn] at hj
  obtain ⟨p, p1, p2, p3⟩ := W.page j hj
  refine ⟨p, by rw [hl]; exact p1, fun o ho => ?_, by rw [hk]; exact p3⟩
  rw [p2 o ho]
  obtain ⟨t, ht⟩ := hs
  rw [← ht]
  have := Nat.mul_le_mul_right c.vcap (show j + 1 ≤ v.next by omega)
  rw [Nat.add_mul, Nat.one_mul] at this
  simp only [List.getD_eq_getElem?_getD]
  rw [List.getElem?_append_left (by omega)]

theorem storeVar_writes (h : c.VFile) (u : Var) :
    Spec.writes (storeVar c u).1.dev.log = Spec.writes u.dev.log ++ [(u.next % c.numVar, vout u)] := by
  rw [storeVar_eq h]
  simp only
  induction u.dev.log with
  | nil => rfl
  | cons e l ih => cases e <;> simp [Spec.writes, ih]

theorem writeVar_writes (h : c.VFile) {v1 : Var} {n : Nat} (e : writeVar c v = (v1, some n)) :
    Spec.writes v1.dev.log = Spec.writes v.dev.log ++ [(v.next % c.numVar, vout v)] := by
  unfold writeVar at e
  simp only at e
  have hread : ∀ (u : Var) (ph : Nat), (readVar u ph).1.dev = u.dev ∧ (readVar u ph).1.next = u.next ∧ (readVar u ph).1.wbuf = u.wbuf := by
    intro u ph
    unfold EDB.readVar
    split_ifs
    · exact ⟨rfl, rfl, rfl⟩
    · cases u.dev.file ph <;> exact ⟨rfl, rfl, rfl⟩
  by_cases ha : v.avail = 0
  · rw [if_pos ha] at e
    by_cases he : (v.dev.erase c (v.next % c.numVar) (v.next % c.numVar + c.B)).2 = true
    · rw [if_pos he] at e
      obtain ⟨r1, r2, r3⟩ := hread { v with dev := (v.dev.erase c (v.next % c.numVar) (v.next % c.numVar + c.B)).1, avail := v.avail + c.B }
        ((v.next % c.numVar + c.B - 1) % c.numVar)
      split_ifs at e
      · have e1 := congrArg Prod.fst e
        simp only at e1
        rw [← e1, storeVar_writes h]
        unfold vout
        simp only [r1, r2, r3]
        congr 1
        unfold Dev.erase
        split_ifs
        · simp only
          induction v.dev.log with
          | nil => rfl
          | cons e l ih => cases e <;> simp [Spec.writes, ih]
        · rfl
      · cases e
    · rw [if_neg he] at e
      cases e
  · rw [if_neg ha] at e
    have e1 := congrArg Prod.fst e
    simp only at e1
    rw [← e1, storeVar_writes h]

/-- A page is written and the next one started. -/
theorem VInv.turn (h : c.VFile) (hK : K ≤ 256 ^ c.keySize) (I : VInv c E lo K g v) (hne : E → HasData c g v)
    (hr : RoomFor c E (v.next + 1)) :
    ∃ v1 g', writeVar c v = (v1, some v.next) ∧ v1.next = v.next + 1 ∧ v1.loc = v.loc ∧ v1.hasVar = v.hasVar ∧
      g'.s = g.s ++ List.replicate ((v.next + 1) * c.vcap - g.s.length) 0 ∧ g'.es = g.es ∧ g'.ks = g.ks ++ [vkey c v.wbuf] ∧
      g.vmin ≤ g'.vmin ∧
      ∀ (w0 : Page) (a : Nat), Round c a ((v.next + 1) * c.pageSize + c.vhdr) → (∀ o, o < c.vcap → w0 (c.vhdr + o) = 0) →
        (vkey c w0 = 0 ∨ IsLast g (vkey c w0)) →
        VInv c E lo K g' { v1 with wbuf := w0, loc := a } := by
  have hsum := I.sim.sum
  have hB := h.B0
  have hlim := I.lim
  have hid : 0 < v.avail ∨ c.eraseFx = id := by
    by_cases hE : E
    · exact Or.inr (I.era hE)
    · left
      have h1 : g.vmin = 0 := by rcases I.wrap with h1 | h1; exact h1; exact absurd h1 hE
      have h3 := I.base0 h1
      have h2 : v.next + 1 ≤ c.numVar := by rcases hr with h2 | h2; exact absurd h2 hE; exact h2
      omega
  obtain ⟨v1, w1, w2, w3, w4, w5, w6⟩ := I.sim.write h hid
  have hle : g.vmin ≤ vlimAfter c g v := by
    unfold vlimAfter
    split_ifs <;> omega
  refine ⟨v1, ⟨vlimAfter c g v, g.s ++ List.replicate ((v.next + 1) * c.vcap - g.s.length) 0,
    g.ks ++ [vkey c v.wbuf], g.es⟩, w1, w2, w3, w4, rfl, rfl, rfl, hle, ?_⟩
  intro w0 a0 ha0 hw0 hwk
  have hlen := I.sim.klen
  have hlo := I.sim.lo
  have hhi := I.sim.hi
  have htwo := h.two
  have hks : ∀ j, j < v.next → (g.ks ++ [vkey c v.wbuf]).getD j 0 = g.ks.getD j 0 := by
    intro j hj
    simp only [List.getD_eq_getElem?_getD]
    rw [List.getElem?_append_left (by omega)]
  have hkn : (g.ks ++ [vkey c v.wbuf]).getD v.next 0 = vkey c v.wbuf := by
    simp only [List.getD_eq_getElem?_getD]
    rw [List.getElem?_append_right (by omega)]
    simp [hlen]
  have hE0 : v.avail = 0 → E := by
    intro h0
    rcases hr with h1 | h1
    · exact h1
    · rcases I.wrap with h2 | h2
      · have := I.base0 h2
        omega
      · exact h2
  have V' := w6 w0 a0 ha0 hw0
  have hb' := V'.base
  have hs' := V'.sum
  simp only [w2] at hs'
  refine ⟨by rw [hb']; exact V', ⟨le_trans hlim.1 hle, ?_⟩, ?_, ?_, ?_, I.era, I.bound⟩
  · rw [hb']
    simp only
    unfold vminAfter at hs' ⊢
    unfold vlimAfter
    by_cases ha : v.avail = 0
    · left
      simp only [ha, if_true] at hs' ⊢
      refine ⟨trivial, Or.inr (by omega)⟩
    · simp only [ha, if_false] at hs' ⊢
      rcases hlim.2 with ⟨h1, h2⟩ | h1
      · left
        refine ⟨h1, h2.imp id (fun h2 => by omega)⟩
      · have hti := I.sim.tight
        exact Or.inr ⟨h1.1, h1.2.1, h1.2.2.1, Or.inl (by omega)⟩
  · intro hE
    have Kk := I.keys hE
    constructor
    · intro j hj
      simp only [w2] at hj ⊢
      by_cases hjn : j < v.next
      · rw [hks j hjn]; exact Kk.pages j hjn
      · have : j = v.next := by omega
        subst this
        rw [hkn]
        obtain ⟨e, e1, e2, e4⟩ := hne hE
        have := I.bound e e1
        refine ⟨by omega, fun e' he' => ⟨fun _ => by rw [e2]; exact e4 e' he', fun _ => Kk.last e' he'⟩⟩
    · refine ⟨Kk.tops.1, ?_⟩
      intro j hj
      simp only [w2] at hj ⊢
      by_cases hjn : j < v.next
      · rw [hks j hjn]; exact Kk.tops.2 j hjn
      · have : j = v.next := by omega
        subst this
        rw [hkn]
        obtain ⟨e, e1, e2, -⟩ := hne hE
        exact Or.inr ⟨e, e1, e2⟩
    · simp only [w2]
      rcases hwk with h1 | h1
      · left
        refine ⟨?_, h1⟩
        rw [List.length_append, List.length_replicate]
        omega
      · exact Or.inr h1
    · intro e he
      have := Kk.last e he
      simp only [w2]
      omega
    · have hww := writeVar_writes h w1
      obtain ⟨j1, j2⟩ := Kk.jr
      refine ⟨?_, fun j hj => ?_⟩
      · show (Spec.writes v1.dev.log).length = v1.next
        rw [hww, w2, List.length_append, j1]
        rfl
      · simp only [w2] at hj
        show ∃ p, (Spec.writes v1.dev.log)[j]? = _ ∧ _
        rw [hww]
        have hget : ∀ i, (g.s ++ List.replicate ((v.next + 1) * c.vcap - g.s.length) (0 : Byte)).getD i 0 = g.s.getD i 0 := by
          intro i
          simp only [List.getD_eq_getElem?_getD]
          by_cases hi : i < g.s.length
          · rw [List.getElem?_append_left hi]
          · rw [List.getElem?_append_right (by omega), List.getElem?_replicate, List.getElem?_eq_none (by omega)]
            split_ifs <;> rfl
        by_cases hjn : j < v.next
        · obtain ⟨p, p1, p2, p3⟩ := j2 j hjn
          refine ⟨p, by rw [List.getElem?_append_left (by omega)]; exact p1, fun o ho => ?_, ?_⟩
          · simp only [hget]; exact p2 o ho
          · simp only [hks j hjn]; exact p3
        · have : j = v.next := by omega
          subst this
          refine ⟨vout v, by rw [List.getElem?_append_right (by omega), j1, Nat.sub_self]; rfl, fun o ho => ?_, ?_⟩
          · rw [vout_pay]
            simp only [hget]
            exact I.sim.buf o ho
          · rw [vkey_out]
            simp only [hkn]
  · unfold MinOk
    simp only [w5]
    by_cases ha : v.avail = 0
    · have hE := hE0 ha
      right; right
      have hj : vbase c v + c.B - 1 < v.next := by omega
      have hva : vlimAfter c g v = vbase c v + c.B := by unfold vlimAfter; rw [if_pos ha]
      rw [hva]
      refine ⟨by omega, ?_⟩
      unfold minRecAfter
      rw [if_pos ha, hks _ hj]
      have := ((I.keys hE).pages _ hj).1
      exact setLow_succ_mod h _ _ (by omega)
    · have hva : vlimAfter c g v = g.vmin := by unfold vlimAfter; rw [if_neg ha]
      have hmr : minRecAfter c (vbase c v) g.ks v = v.minRec := by unfold minRecAfter; rw [if_neg ha]
      rw [hva, hmr]
      rcases I.minOk with h1 | h1 | ⟨h1, h2⟩
      · exact Or.inl h1
      · exact Or.inr (Or.inl h1)
      · right; right
        refine ⟨h1, ?_⟩
        rw [hks _ (I.vmin_lt h h1)]
        exact h2
  · simp only
    by_cases ha : v.avail = 0
    · exact Or.inr (hE0 ha)
    · have hva : vlimAfter c g v = g.vmin := by unfold vlimAfter; rw [if_neg ha]
      rw [hva]; exact I.wrap

/-- Bytes are added to the page in the buffer. -/
theorem VSim.extend {vmin : Nat} {s : List Byte} {ks : List Nat} (V : VSim c vmin s ks v) (bs : List Byte)
    (hfit : s.length + bs.length ≤ (v.next + 1) * c.vcap) :
    VSim c vmin (s ++ bs) ks
      { v with wbuf := wr v.wbuf (c.vhdr + (s.length - v.next * c.vcap)) bs, loc := v.loc + bs.length } := by
  have hlo := V.lo
  have hget : ∀ i, i < s.length → (s ++ bs).getD i 0 = s.getD i 0 := by
    intro i hi
    simp only [List.getD_eq_getElem?_getD]
    rw [List.getElem?_append_left hi]
  refine ⟨?_, ?_, ?_, V.klen, V.dvd, V.sum, V.tight, ?_, ?_, V.cacheN, V.cache, V.only⟩
  · simp only [List.length_append]; omega
  · simp only [List.length_append]; omega
  · simp only [List.length_append]
    have := V.loc.add bs.length
    rw [show v.next * c.pageSize + c.vhdr + (s.length - v.next * c.vcap) + bs.length =
      v.next * c.pageSize + c.vhdr + (s.length + bs.length - v.next * c.vcap) by omega] at this
    exact this
  · intro j j1 j2
    obtain ⟨p, p1, p2, p3⟩ := V.stored j j1 j2
    refine ⟨p, p1, ?_, p3⟩
    intro o ho
    have hj : (j + 1) * c.vcap ≤ v.next * c.vcap := Nat.mul_le_mul_right _ j2
    have e : (j + 1) * c.vcap = j * c.vcap + c.vcap := by ring
    rw [hget _ (by omega)]
    exact p2 o ho
  · intro o ho
    have e : (v.next + 1) * c.vcap = v.next * c.vcap + c.vcap := by ring
    simp only
    by_cases h1 : o < s.length - v.next * c.vcap
    · rw [wr_apply_out _ _ _ _ (by omega), hget _ (by omega)]
      exact V.buf o ho
    · by_cases h2 : v.next * c.vcap + o < s.length + bs.length
      · unfold wr
        rw [if_pos (by omega)]
        simp only [List.getD_eq_getElem?_getD]
        rw [List.getElem?_append_right (by omega)]
        congr 2
        omega
      · rw [wr_apply_out _ _ _ _ (by omega), V.buf o ho]
        simp only [List.getD_eq_getElem?_getD]
        rw [List.getElem?_eq_none (by omega), List.getElem?_eq_none (by rw [List.length_append]; omega)]

theorem vkey_wr (p : Page) (o : Nat) (bs : List Byte) (ho : c.vhdr ≤ o) : vkey c (wr p o bs) = vkey c p := by
  unfold vkey
  rw [rd_wr_disj _ _ _ _ _ (by unfold Cfg.vhdr at ho; omega)]

/-- The page is not complete. -/
def Open (c : Cfg) (g : Gh) (v : Var) : Prop := g.s.length < (v.next + 1) * c.vcap

theorem VInv.extend (I : VInv c E lo K g v) (bs : List Byte)
    (hfit : g.s.length + bs.length ≤ (v.next + 1) * c.vcap) (hk : E → IsLast g (vkey c v.wbuf)) :
    VInv c E lo K { g with s := g.s ++ bs }
      { v with wbuf := wr v.wbuf (c.vhdr + (g.s.length - v.next * c.vcap)) bs, loc := v.loc + bs.length } := by
  refine ⟨I.sim.extend bs hfit, I.lim, ?_, I.minOk, I.wrap, I.era, I.bound⟩
  intro hE
  refine ⟨(I.keys hE).pages, (I.keys hE).tops, Or.inr ?_, (I.keys hE).last, (I.keys hE).jr.grow I.sim.lo (List.prefix_append _ _) rfl rfl rfl⟩
  simp only
  rw [vkey_wr _ _ _ (by omega)]
  exact hk hE

theorem vkey_zero (c : Cfg) : vkey c (fun _ => 0) = 0 := by
  unfold vkey
  have : ∀ n, leNat (rd (fun _ => (0 : Byte)) 4 n) = 0 := by
    intro n
    unfold rd
    rw [List.map_const']
    simp only [List.length_range]
    induction n with
    | zero => rfl
    | succ n ih => simp [List.replicate_succ, leNat, ih]
  exact this _

theorem zeroKey_pay (key o : Nat) : wr (fun _ => 0) 4 (leBytes c.keySize key) (c.vhdr + o) = 0 := by
  rw [wr_apply_out _ _ _ _ (by rw [leBytes_length]; unfold Cfg.vhdr; omega)]

theorem zeroKey_key {key : Nat} (hk : key < 256 ^ c.keySize) (p : Page) : vkey c (wr p 4 (leBytes c.keySize key)) = key := by
  unfold vkey
  rw [rd_wr_same _ _ _ (leBytes_length _ _), leNat_leBytes_of_lt hk]

theorem div_page {n q k : Nat} (h1 : n * k ≤ q) (h2 : q < (n + 1) * k) : q / k = n := by
  rw [Nat.div_eq_iff (by rcases Nat.eq_zero_or_pos k with h | h; subst h; simp at h2; exact h)]
  have : (n + 1) * k = n * k + k := by ring
  rw [Nat.mul_comm] at h1
  constructor
  · rw [Nat.mul_comm]; omega
  · omega

/-- A complete page is written. -/
theorem VInv.roll (h : c.VFile) (hK : K ≤ 256 ^ c.keySize) (I : VInv c E lo K g v) {key : Nat} (hkK : key + 1 < K)
    (hl : E → IsLast g key) (hr : RoomFor c E (g.s.length / c.vcap)) :
    ∃ g', VInv c E lo K g' (rollVar c key v) ∧ g'.s = g.s ∧ g'.es = g.es ∧ Open c g' (rollVar c key v) ∧
      (rollVar c key v).hasVar = v.hasVar ∧ v.next ≤ (rollVar c key v).next ∧ g.vmin ≤ g'.vmin ∧
      (E → HasData c g v → HasData c g' (rollVar c key v)) := by
  have hcap := h.cap4
  have hps := h.ps
  have hhi := I.sim.hi
  have hlo := I.sim.lo
  unfold rollVar
  by_cases hf : g.s.length = (v.next + 1) * c.vcap
  · obtain ⟨f1, f2⟩ := I.sim.off_full h hf
    rw [if_pos f2]
    have hdiv : g.s.length / c.vcap = v.next + 1 := by rw [hf, Nat.mul_div_cancel _ (by omega)]
    rw [hdiv] at hr
    have hlt : v.next * c.vcap < (v.next + 1) * c.vcap := by
      have e : (v.next + 1) * c.vcap = v.next * c.vcap + c.vcap := by ring
      omega
    obtain ⟨v1, g', w1, w2, w3, w4, w5, w6, -, w7, w8⟩ := I.turn h hK (fun hE => I.hasData hE (by omega)) hr
    rw [w1]
    simp only
    rw [← w3] at f1
    have hkk : vkey c (wr (fun _ => (0 : Byte)) 4 (leBytes c.keySize key)) = key := zeroKey_key (by omega) _
    by_cases hE : E
    · have := w8 (wr (fun _ => 0) 4 (leBytes c.keySize key)) _ f1 (fun o _ => zeroKey_pay _ _) (Or.inr (by
        rw [hkk]; exact hl hE))
      refine ⟨g', this, ?_, w6, ?_, w4, by omega, w7, ?_⟩
      · rw [w5, hf, Nat.sub_self]; simp
      · unfold Open
        rw [w5, hf, Nat.sub_self]
        simp only [w2, List.replicate_zero, List.append_nil, hf]
        have e : (v.next + 1 + 1) * c.vcap = (v.next + 1) * c.vcap + c.vcap := by ring
        omega
      · intro _ _
        obtain ⟨e, e1, e2, e4⟩ := hl hE
        rw [← w6] at e1 e4
        exact ⟨e, e1, by simp only [hkk]; exact e2, e4⟩
    · -- without wrap-around header keys do not matter
      have J := w8 (fun _ => 0) _ f1 (fun o _ => rfl) (Or.inl (vkey_zero c))
      refine ⟨g', ⟨?_, J.lim, fun h => absurd h hE, J.minOk, J.wrap, J.era, J.bound⟩, ?_, w6, ?_, w4, by omega, w7, fun h => absurd h hE⟩
      · have V := J.sim
        refine ⟨V.lo, V.hi, V.loc, V.klen, V.dvd, V.sum, V.tight, V.stored, ?_, V.cacheN, V.cache, V.only⟩
        intro o ho
        simp only
        rw [zeroKey_pay]
        exact V.buf o ho
      · rw [w5, hf, Nat.sub_self]; simp
      · unfold Open
        rw [w5, hf, Nat.sub_self]
        simp only [w2, List.replicate_zero, List.append_nil, hf]
        have e : (v.next + 1 + 1) * c.vcap = (v.next + 1) * c.vcap + c.vcap := by ring
        omega
  · have hlt : g.s.length < (v.next + 1) * c.vcap := by omega
    obtain ⟨o1, -, -⟩ := I.sim.off h hlt
    have : 4 ≤ c.vhdr := by unfold Cfg.vhdr; omega
    rw [if_neg (by omega)]
    exact ⟨g, I, rfl, rfl, hlt, rfl, le_refl _, le_refl _, fun _ h => h⟩

/-- The loop that stores the bytes. -/
theorem VInv.chunks (h : c.VFile) (hK : K ≤ 256 ^ c.keySize) {key : Nat} (hkK : key + 1 < K) :
    ∀ (f : Nat) (bs : List Byte) (v : Var) (g : Gh), VInv c E lo K g v → Open c g v → bs.length < f →
      (E → IsLast g key) → (E → vkey c v.wbuf = key) → RoomFor c E ((g.s.length + bs.length) / c.vcap) →
      ∃ v' g', putChunks c key f v bs = .ok v' ∧ VInv c E lo K g' v' ∧ Open c g' v' ∧ g'.s = g.s ++ bs ∧ g'.es = g.es ∧
        v'.hasVar = v.hasVar ∧ v.next ≤ v'.next ∧ g.vmin ≤ g'.vmin ∧ (E → HasData c g' v') := by
  intro f
  induction f with
  | zero => intro bs v g _ _ hf; omega
  | succ f ih =>
    intro bs v g I ho hf hl hk hr
    unfold putChunks
    by_cases hb : bs = []
    · rw [if_pos hb]
      refine ⟨v, g, rfl, I, ho, by rw [hb]; simp, rfl, rfl, le_refl _, le_refl _, fun hE => by unfold HasData; rw [hk hE]; exact hl hE⟩
    · rw [if_neg hb]
      obtain ⟨o1, o2, o3⟩ := I.sim.off h ho
      have hps := h.ps
      have hlo := I.sim.lo
      have hpos : 0 < bs.length := List.length_pos_iff.mpr hb
      unfold Open at ho
      have e : (v.next + 1) * c.vcap = v.next * c.vcap + c.vcap := by ring
      obtain ⟨n, hn⟩ : ∃ n, n = min (c.pageSize - v.loc % c.pageSize) bs.length := ⟨_, rfl⟩
      have hn1 : n ≤ bs.length := by omega
      have hn2 : 0 < n := by omega
      have hn3 : g.s.length + n ≤ (v.next + 1) * c.vcap := by omega
      simp only [← hn]
      have hlen : (bs.take n).length = n := by rw [List.length_take]; omega
      have J := I.extend (bs.take n) (by rw [hlen]; exact hn3) (fun hE => by rw [hk hE]; exact hl hE)
      rw [hlen, ← o1] at J
      have hmono : (g.s.length + n) / c.vcap ≤ (g.s.length + bs.length) / c.vcap := Nat.div_le_div_right (by omega)
      have hl' : E → IsLast { g with s := g.s ++ bs.take n } key := hl
      have hkb : vkey c (wr v.wbuf (v.loc % c.pageSize) (bs.take n)) = vkey c v.wbuf := vkey_wr _ _ _ (by omega)
      obtain ⟨g1, r1, r2, r3, r4, r5, r6, r6', r7⟩ := J.roll h hK hkK hl' (by
        simp only [List.length_append, hlen]
        rcases hr with h1 | h1
        · exact Or.inl h1
        · right; omega)
      obtain ⟨v', g', q1, q2, q3, q4, q5, q6, q7, q7', q8⟩ := ih (bs.drop n) _ g1 r1 r4 (by rw [List.length_drop]; omega)
        (fun hE => by
          obtain ⟨e, e1, e2, e4⟩ := hl hE
          exact ⟨e, by rw [r3]; exact e1, e2, by rw [r3]; exact e4⟩)
        (fun hE => by
          unfold rollVar
          split_ifs
          · simp only; exact zeroKey_key (by omega) _
          · simp only; rw [hkb]; exact hk hE)
        (by
          rw [r2]
          simp only [List.length_append, hlen, List.length_drop]
          have : g.s.length + n + (bs.length - n) = g.s.length + bs.length := by omega
          rw [this]
          exact hr)
      refine ⟨v', g', q1, q2, q3, ?_, by rw [q5, r3], by rw [q6, r5], le_trans r6 q7, le_trans r6' q7', q8⟩
      rw [q4, r2]
      simp only [List.append_assoc, List.take_append_drop]

/-- A new piece of data. -/
def newEnt (g : Gh) (key : Nat) (bs : List Byte) : Ent := ⟨key, g.s.length, bs⟩

/-- Storing length and bytes behind the current position. -/
theorem VInv.storeBytes (h : c.VFile) (hK : K ≤ 256 ^ c.keySize) {key : Nat} (hkK : key + 1 < K) {bs : List Byte}
    (I : VInv c E lo K g v) (ho : g.s.length + 4 ≤ (v.next + 1) * c.vcap) (hlow : lo ≤ key) (hgt : ∀ e ∈ g.es, e.key < key)
    (hr : RoomFor c E ((g.s.length + 4 + bs.length) / c.vcap)) :
    ∃ v' g', storeBytes c v key bs = .ok v' ∧ VInv c E lo K g' v' ∧ Open c g' v' ∧
      g'.s = g.s ++ leBytes 4 bs.length ++ bs ∧ g'.es = g.es ++ [newEnt g key bs] ∧ v'.hasVar = v.hasVar ∧
      v.next ≤ v'.next ∧ g.vmin ≤ g'.vmin ∧ (E → HasData c g' v') := by
  have htop : E → ∀ j, j < v.next → g.ks.getD j 0 < key := by
    intro hE j hj
    have h0 := (I.keys hE).tops.1
    rcases (I.keys hE).tops.2 j hj with h1 | ⟨e, h1, h2⟩
    · omega
    · have := hgt e h1
      omega
  have hopen : Open c g v := by unfold Open; omega
  obtain ⟨o1, o2, o3⟩ := I.sim.off h hopen
  have hps := h.ps
  have hlo := I.sim.lo
  have e : (v.next + 1) * c.vcap = v.next * c.vcap + c.vcap := by ring
  have hdiv : g.s.length / c.vcap = v.next := div_page hlo (by omega)
  unfold EDB.storeBytes
  -- minVarRecordId
  obtain ⟨v1, hv1⟩ : ∃ v1, v1 = (if v.minRec = 2 ^ 64 - 1 then { v with minRec := setLow c.keySize v.minRec key } else v) :=
    ⟨_, rfl⟩
  have s1 : v1.wbuf = v.wbuf ∧ v1.loc = v.loc ∧ v1.next = v.next ∧ v1.hasVar = v.hasVar ∧ v1.dev = v.dev ∧
      v1.rbuf = v.rbuf ∧ v1.buffered = v.buffered ∧ v1.avail = v.avail := by
    rw [hv1]; split_ifs <;> exact ⟨rfl, rfl, rfl, rfl, rfl, rfl, rfl, rfl⟩
  obtain ⟨s1, s2, s3, s4, s5, s6, s7, s8⟩ := s1
  have V1 : VSim c (vbase c v) g.s g.ks v1 := by
    have V := I.sim
    exact ⟨by rw [s3]; exact V.lo, by rw [s3]; exact V.hi, by rw [s2, s3]; exact V.loc, by rw [s3]; exact V.klen, V.dvd,
      by rw [s3, s8]; exact V.sum, by rw [s8]; exact V.tight, by rw [s3, s5]; exact V.stored, by rw [s1, s3]; exact V.buf,
      by rw [s3, s7]; exact V.cacheN, by rw [s3, s5, s6, s7]; exact V.cache, by rw [s3, s5]; exact V.only⟩
  -- the header key
  obtain ⟨v2, hv2⟩ : ∃ v2 : Var, v2 = { v1 with wbuf := wr v1.wbuf 4 (leBytes c.keySize key) } := ⟨_, rfl⟩
  have hk2 : vkey c v2.wbuf = key := by rw [hv2]; exact zeroKey_key (by omega) _
  have hmem : newEnt g key bs ∈ g.es ++ [newEnt g key bs] := by simp
  have hmax : ∀ e' ∈ g.es ++ [newEnt g key bs], e'.key ≤ (newEnt g key bs).key := by
    intro e' he'
    rcases List.mem_append.mp he' with h1 | h1
    · exact le_of_lt (hgt e' h1)
    · rw [List.mem_singleton.mp h1]
  have hlast : IsLast { g with es := g.es ++ [newEnt g key bs] } key := ⟨_, hmem, rfl, hmax⟩
  have hbase : vbase c v2 = vbase c v := by rw [hv2]; unfold vbase; simp only [s3, s8]
  have J : VInv c E lo K { g with es := g.es ++ [newEnt g key bs] } v2 := by
    refine ⟨?_, ?_, ?_, ?_, I.wrap, I.era, ?_⟩
    · rw [hbase, hv2]
      refine ⟨V1.lo, V1.hi, V1.loc, V1.klen, V1.dvd, V1.sum, V1.tight, V1.stored, ?_, V1.cacheN, V1.cache, V1.only⟩
      intro o ho
      simp only
      rw [wr_apply_out _ _ _ _ (by rw [leBytes_length]; unfold Cfg.vhdr; omega)]
      exact V1.buf o ho
    · rw [hbase, hv2]
      simp only [s8]
      rw [s3]; exact I.lim
    · intro hE
      have Kk := I.keys hE
      refine ⟨?_, ?_, Or.inr (by rw [hk2]; exact hlast), ?_, ?_⟩
      · intro j hj
        rw [hv2] at hj
        simp only [s3] at hj
        obtain ⟨e1, e2⟩ := Kk.pages j hj
        refine ⟨e1, ?_⟩
        intro e' he'
        rcases List.mem_append.mp he' with h1 | h1
        · exact e2 e' h1
        · have := htop hE j hj
          rw [List.mem_singleton.mp h1]
          simp only [newEnt, hdiv]
          omega
      · refine ⟨Kk.tops.1, ?_⟩
        intro j hj
        rw [hv2] at hj
        simp only [s3] at hj
        exact (Kk.tops.2 j hj).imp id (fun ⟨e, h1, h2⟩ => ⟨e, List.mem_append_left _ h1, h2⟩)
      · intro e' he'
        rw [hv2]
        simp only [s3]
        rcases List.mem_append.mp he' with h1 | h1
        · exact Kk.last e' h1
        · rw [List.mem_singleton.mp h1]
          simp only [newEnt, hdiv]
          exact le_refl _
      · exact Kk.jr.grow I.sim.lo (List.prefix_refl _) rfl (by rw [hv2]; exact congrArg Dev.log s5) (by rw [hv2]; exact s3)
    · unfold MinOk
      have hm2 : v2.minRec = v1.minRec := by rw [hv2]
      rw [hm2, hv1]
      have hkP : key < 256 ^ c.keySize := by omega
      by_cases hm : v.minRec = 2 ^ 64 - 1
      · rw [if_pos hm]
        have hones : (2 ^ 64 - 1) % 256 ^ c.keySize = 256 ^ c.keySize - 1 := by
          obtain ⟨q, hq⟩ := pow_dvd_u64 h
          have hP : 0 < 256 ^ c.keySize := Nat.pow_pos (by decide)
          rw [hq]
          have hq0 : 0 < q := by
            rcases Nat.eq_zero_or_pos q with h0 | h0
            · rw [h0] at hq; simp at hq
            · exact h0
          obtain ⟨q', rfl⟩ : ∃ q', q = q' + 1 := ⟨q - 1, by omega⟩
          have : 256 ^ c.keySize * (q' + 1) - 1 = 256 ^ c.keySize * q' + (256 ^ c.keySize - 1) := by
            rw [Nat.mul_add]; omega
          rw [this, Nat.mul_add_mod, Nat.mod_eq_of_lt (by omega)]
        rcases I.minOk with ⟨h1, h2, -⟩ | ⟨h1, e1, e2, e3⟩ | ⟨h1, h2⟩
        · right; left
          have hsl : setLow c.keySize v.minRec key % 256 ^ c.keySize = key := setLow_mod _ _ _ hkP
          refine ⟨h1, ?_, Or.inr ⟨_, hmem, hsl⟩, ?_⟩
          · simp only; rw [hsl]; exact hkK
          intro e' he'
          simp only [h2, List.nil_append, List.mem_singleton] at he'
          simp only
          rw [he', hsl]
          exact le_refl _
        · exfalso
          rw [hm, hones] at e1
          omega
        · exfalso
          have hE : E := by rcases I.wrap with h3 | h3; omega; exact h3
          rw [hm, hones] at h2
          have := htop hE _ (I.vmin_lt h h1)
          omega
      · rw [if_neg hm]
        rcases I.minOk with ⟨h1, h2, h3⟩ | ⟨h1, e1, e2, e3⟩ | h1
        · exact absurd h3 hm
        · right; left
          refine ⟨h1, e1, e2.imp id (fun ⟨e, e4, e5⟩ => ⟨e, List.mem_append_left _ e4, e5⟩), ?_⟩
          intro e' he'
          rcases List.mem_append.mp he' with h4 | h4
          · exact e3 e' h4
          · rw [List.mem_singleton.mp h4]
            rcases e2 with h5 | ⟨e, e4, e5⟩
            · exact le_trans h5 hlow
            · rw [e5]; exact le_of_lt (hgt e e4)
        · exact Or.inr (Or.inr h1)
    · intro e' he'
      rcases List.mem_append.mp he' with h1 | h1
      · exact I.bound e' h1
      · rw [List.mem_singleton.mp h1]; exact hkK
  -- the length
  have hl4 : (leBytes 4 bs.length).length = 4 := leBytes_length _ _
  have hv2n : v2.next = v.next := by rw [hv2]; exact s3
  have hv2l : v2.loc = v.loc := by rw [hv2]; exact s2
  have J2 : VInv c E lo K { vmin := g.vmin, s := g.s ++ leBytes 4 bs.length, ks := g.ks, es := g.es ++ [newEnt g key bs] }
      { v2 with wbuf := wr v2.wbuf (c.vhdr + (g.s.length - v.next * c.vcap)) (leBytes 4 bs.length), loc := v2.loc + 4 } := by
    have := J.extend (leBytes 4 bs.length) (by rw [hl4, hv2n]; exact ho) (fun _ => by rw [hk2]; exact hlast)
    rw [hl4] at this
    rw [← hv2n]
    exact this
  simp only [← hv1]
  rw [s2]
  have hoff : ¬ (v.loc % c.pageSize + 4 > c.pageSize) := by rw [o1]; omega
  rw [if_neg hoff]
  have hst : ({ v1 with wbuf := wr (wr v1.wbuf 4 (leBytes c.keySize key)) (v.loc % c.pageSize) (leBytes 4 bs.length), loc := v.loc + 4 } : Var) = { v2 with wbuf := wr v2.wbuf (c.vhdr + (g.s.length - v.next * c.vcap)) (leBytes 4 bs.length), loc := v2.loc + 4 } := by
    rw [hv2, o1]
    simp only [s2]
  rw [hst]
  obtain ⟨v3, hv3⟩ : ∃ v3 : Var, v3 = { v2 with wbuf := wr v2.wbuf (c.vhdr + (g.s.length - v.next * c.vcap)) (leBytes 4 bs.length), loc := v2.loc + 4 } := ⟨_, rfl⟩
  rw [← hv3] at J2 ⊢
  have hk3 : vkey c v3.wbuf = key := by rw [hv3]; simp only; rw [vkey_wr _ _ _ (by omega), hk2]
  have hn3 : v3.next = v.next := by rw [hv3]; exact hv2n
  have hlast3 : IsLast { vmin := g.vmin, s := g.s ++ leBytes 4 bs.length, ks := g.ks, es := g.es ++ [newEnt g key bs] } key := hlast
  obtain ⟨g1, r1, r2, r3, r4, r5, r6, r6', r7⟩ := J2.roll h hK hkK (fun _ => hlast3) (by
    simp only [List.length_append, hl4]
    rcases hr with h1 | h1
    · exact Or.inl h1
    · right
      refine le_trans (Nat.div_le_div_right ?_) h1
      omega)
  obtain ⟨v', g', q1, q2, q3, q4, q5, q6, q7, q7', q8⟩ := VInv.chunks h hK hkK (bs.length + 1) bs _ g1 r1 r4 (by omega)
    (fun hE => by
      obtain ⟨e, e1, e2, e4⟩ := hlast3
      exact ⟨e, by rw [r3]; exact e1, e2, by rw [r3]; exact e4⟩)
    (fun hE => by
      unfold rollVar
      split_ifs
      · simp only; exact zeroKey_key (by omega) _
      · exact hk3)
    (by
      rw [r2]
      simp only [List.length_append, hl4]
      exact hr)
  refine ⟨v', g', q1, q2, q3, ?_, ?_, ?_, ?_, le_trans r6' q7', q8⟩
  · rw [q4, r2]
  · rw [q5, r3]
  · rw [q6, r5, hv3, hv2]; exact s4
  · omega

/-- Bytes that may be left unused before a record is inserted. -/
def padOf (c : Cfg) (d : Data) : Nat := if pageCount d.wbuf ≥ c.maxRec then c.vcap else 3

/-- What happens before the record is inserted: a new page is started if the length field does not fit or the data page
is complete. -/
theorem VInv.pre (h : c.VFile) (hK : K ≤ 256 ^ c.keySize) (hrlc : c.rlc = false) (I : VInv c E lo K g v) (ho : Open c g v)
    (d : Data) (hne : E → pageCount d.wbuf ≥ c.maxRec → HasData c g v)
    (hr : RoomFor c E ((g.s.length + padOf c d) / c.vcap)) :
    ∃ g' z, VInv c E lo K g' (preVar c d v) ∧ g'.s = g.s ++ List.replicate z 0 ∧ z ≤ padOf c d ∧ g'.es = g.es ∧
      g'.s.length + 4 ≤ ((preVar c d v).next + 1) * c.vcap ∧ (preVar c d v).hasVar = v.hasVar ∧
      v.next ≤ (preVar c d v).next ∧ (preVar c d v).next ≤ v.next + 1 ∧ g.vmin ≤ g'.vmin ∧
      (pageCount d.wbuf ≥ c.maxRec → (preVar c d v).next * c.vcap = g'.s.length) := by
  have hcap := h.cap4
  have hps := h.ps
  have hlo := I.sim.lo
  obtain ⟨o1, o2, o3⟩ := I.sim.off h ho
  have e : (v.next + 1) * c.vcap = v.next * c.vcap + c.vcap := by ring
  unfold preVar
  by_cases hc : v.loc % c.pageSize + 4 > c.pageSize ∨ (c.rlc = false ∧ pageCount d.wbuf ≥ c.maxRec)
  · rw [if_pos hc]
    have hpad : (v.next + 1) * c.vcap ≤ g.s.length + padOf c d := by
      unfold padOf
      split_ifs with hf
      · omega
      · rcases hc with h1 | h1
        · omega
        · exact absurd h1.2 hf
    have hr : RoomFor c E (v.next + 1) := by
      rcases hr with h1 | h1
      · exact Or.inl h1
      · exact Or.inr (le_trans ((Nat.le_div_iff_mul_le (by omega)).mpr hpad) h1)
    obtain ⟨v1, g', w1, w2, w3, w4, w5, w6, -, w7, w8⟩ := I.turn h hK (fun hE => by
      rcases hc with h1 | h1
      · exact I.hasData hE (by omega)
      · exact hne hE h1.2) hr
    rw [w1]
    simp only
    rw [← w3] at o2
    have hlen : g'.s.length = (v.next + 1) * c.vcap := by
      rw [w5, List.length_append, List.length_replicate]
      have := I.sim.hi
      omega
    refine ⟨g', _, w8 (fun _ => 0) _ o2 (fun _ _ => rfl) (Or.inl (vkey_zero c)), w5, ?_, w6, ?_, w4, by omega, by omega, w7, ?_⟩
    · rw [w5, List.length_append, List.length_replicate] at hlen
      omega
    · rw [hlen, w2]
      have : (v.next + 1 + 1) * c.vcap = (v.next + 1) * c.vcap + c.vcap := by ring
      omega
    · intro _; rw [hlen, w2]
  · rw [if_neg hc]
    simp only [not_or, not_and] at hc
    refine ⟨g, 0, I, by simp, Nat.zero_le _, rfl, by omega, rfl, le_refl _, by omega, le_refl _, ?_⟩
    intro h1
    exact absurd h1 (hc.2 hrlc)

/-- `embedDBFlushVar`. -/
theorem VInv.flush (h : c.VFile) (hK : K ≤ 256 ^ c.keySize) (I : VInv c E lo K g v) (ho : Open c g v)
    (hr : v.loc % c.pageSize ≠ c.vhdr → RoomFor c E (v.next + 1)) :
    ∃ g' z v', flushVar c v = (v', 0) ∧ VInv c E lo K g' v' ∧ g'.s = g.s ++ List.replicate z 0 ∧ g'.es = g.es ∧
      v'.hasVar = v.hasVar ∧ v.next ≤ v'.next ∧ v'.next ≤ v.next + 1 ∧ g.vmin ≤ g'.vmin ∧
      v'.next * c.vcap = g'.s.length ∧ Open c g' v' := by
  have hcap := h.cap4
  have hps := h.ps
  have hlo := I.sim.lo
  obtain ⟨o1, o2, o3⟩ := I.sim.off h ho
  have e : (v.next + 1) * c.vcap = v.next * c.vcap + c.vcap := by ring
  unfold flushVar
  by_cases hc : v.loc % c.pageSize = c.vhdr
  · rw [if_pos hc]
    exact ⟨g, 0, v, rfl, I, by simp, rfl, rfl, le_refl _, by omega, le_refl _, by omega, ho⟩
  · rw [if_neg hc]
    obtain ⟨v1, g', w1, w2, w3, w4, w5, w6, -, w7, w8⟩ := I.turn h hK (fun hE => I.hasData hE (by omega)) (hr hc)
    rw [w1]
    simp only
    rw [← w3] at o2
    have hlen : g'.s.length = (v.next + 1) * c.vcap := by
      rw [w5, List.length_append, List.length_replicate]
      have := I.sim.hi
      omega
    refine ⟨g', _, _, rfl, w8 (fun _ => 0) _ o2 (fun _ _ => rfl) (Or.inl (vkey_zero c)), w5, w6, w4, by simp only; omega,
      by simp only; omega, w7, by simp only; rw [hlen, w2], ?_⟩
    unfold Open
    simp only [hlen, w2]
    have : (v.next + 1 + 1) * c.vcap = (v.next + 1) * c.vcap + c.vcap := by ring
    omega

end

end EDB
