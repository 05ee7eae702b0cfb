import Verif.Model.Var
import Verif.Proofs.Write

/-! Helper lemmas: the variable data file as a stream of bytes.

The payload of the variable pages (everything after the page header), in page order, is one stream of bytes.  `VSim`
relates a state to that stream: the pages still stored and the write buffer hold it. -/

namespace EDB

/-- Payload bytes per variable page. -/
def Cfg.vcap (c : Cfg) : Nat := c.pageSize - c.vhdr

/-- The assumptions on a table with variable data: a page has room for its header and a length, the file consists of at
least two whole blocks and is smaller than 4 GiB, keys fit into `minVarRecordId`, a bitmap fits into a page of the index file (if there is one). -/
structure Cfg.VFile (c : Cfg) : Prop where
  vdata : c.useVdata = true
  page : c.vhdr + 4 ≤ c.pageSize
  B0 : 0 < c.B
  dvd : c.B ∣ c.numVar
  two : 2 * c.B ≤ c.numVar
  mem : c.numVar * c.pageSize < 2 ^ 32
  key8 : c.keySize ≤ 8
  io : ∀ n, c.ioOk n = true
  /-- an index page has room for a bitmap -/
  cap : c.useIndex = true → 0 < c.maxIdx

/-- The same without an index file. -/
structure Cfg.VOk (c : Cfg) : Prop extends c.VFile where
  idx : c.useIndex = false

instance {c : Cfg} : Coe c.VOk c.VFile := ⟨Cfg.VOk.toVFile⟩

/-- Key in the header of a variable page. -/
def vkey (c : Cfg) (p : Page) : Nat := leNat (rd p 4 c.keySize)

/-- Position `b`, counted from the start of the file or some times around it. -/
def Round (c : Cfg) (a b : Nat) : Prop := ∃ q, a + q * (c.numVar * c.pageSize) = b

theorem Round.refl (c : Cfg) (a : Nat) : Round c a a := ⟨0, by simp⟩

theorem Round.add {c : Cfg} {a b : Nat} (h : Round c a b) (n : Nat) : Round c (a + n) (b + n) := by
  obtain ⟨q, h⟩ := h
  exact ⟨q, by omega⟩

theorem Round.mod {c : Cfg} {a b : Nat} (h : Round c a b) : a % (c.numVar * c.pageSize) = b % (c.numVar * c.pageSize) := by
  obtain ⟨q, h⟩ := h
  rw [← h, Nat.add_mul_mod_self_right]

theorem Round.page {c : Cfg} {a b : Nat} (h : Round c a b) : a % c.pageSize = b % c.pageSize := by
  obtain ⟨q, h⟩ := h
  rw [← h, ← Nat.mul_assoc, Nat.add_mul_mod_self_right]

/-- State `v` holds the stream `s`, of which the pages below `vmin` have been reclaimed.  `ks` are the keys in the headers
of the pages written.  (The page in the write buffer may be complete.) -/
structure VSim (c : Cfg) (vmin : Nat) (s : List Byte) (ks : List Nat) (v : Var) : Prop where
  lo : v.next * c.vcap ≤ s.length
  hi : s.length ≤ (v.next + 1) * c.vcap
  loc : Round c v.loc (v.next * c.pageSize + c.vhdr + (s.length - v.next * c.vcap))
  klen : ks.length = v.next
  dvd : c.B ∣ vmin
  sum : v.next + v.avail = vmin + c.numVar
  tight : vmin = 0 ∨ v.avail ≤ c.B
  stored : ∀ j, vmin ≤ j → j < v.next → ∃ p, v.dev.file (j % c.numVar) = some p ∧
    (∀ o, o < c.vcap → p (c.vhdr + o) = s.getD (j * c.vcap + o) 0) ∧ vkey c p = ks.getD j 0
  buf : ∀ o, o < c.vcap → v.wbuf (c.vhdr + o) = s.getD (v.next * c.vcap + o) 0
  cacheN : ∀ ph, v.buffered = some ph → ph < c.numVar ∧ ph < v.next
  cache : ∀ ph, v.buffered = some ph → ∀ j, vmin ≤ j → j < v.next → j % c.numVar = ph →
    v.dev.file ph = some v.rbuf ∨ (0 < vmin ∧ vmin + c.numVar ≤ j + c.B)
  only : ∀ ph p, v.dev.file ph = some p → ph < c.numVar ∧ ph < v.next

section
variable {c : Cfg} {vmin : Nat} {s : List Byte} {ks : List Nat} {v : Var}

theorem Cfg.VFile.cap4 (h : c.VFile) : 4 ≤ c.vcap := by have := h.page; unfold Cfg.vcap; omega

theorem Cfg.VFile.ps (h : c.VFile) : c.pageSize = c.vhdr + c.vcap := by have := h.page; unfold Cfg.vcap; omega

theorem Cfg.VFile.nv (h : c.VFile) : 0 < c.numVar := by have := h.B0; have := h.two; omega

theorem VSim.off (h : c.VFile) (V : VSim c vmin s ks v) (hlt : s.length < (v.next + 1) * c.vcap) :
    v.loc % c.pageSize = c.vhdr + (s.length - v.next * c.vcap) ∧
      Round c (v.loc + (c.pageSize - v.loc % c.pageSize + c.vhdr)) ((v.next + 1) * c.pageSize + c.vhdr) ∧
      s.length - v.next * c.vcap < c.vcap := by
  have h1 := V.lo
  have hp := h.ps
  have e : (v.next + 1) * c.vcap = v.next * c.vcap + c.vcap := by ring
  have hx : s.length - v.next * c.vcap < c.vcap := by omega
  have e2 : (v.next + 1) * c.pageSize = v.next * c.pageSize + c.pageSize := by ring
  have e3 : v.loc % c.pageSize = c.vhdr + (s.length - v.next * c.vcap) := by
    rw [V.loc.page, Nat.add_assoc, Nat.mul_comm v.next c.pageSize, Nat.mul_add_mod, Nat.mod_eq_of_lt (by omega)]
  refine ⟨e3, ?_, hx⟩
  have := V.loc.add (c.pageSize - v.loc % c.pageSize + c.vhdr)
  rw [show v.next * c.pageSize + c.vhdr + (s.length - v.next * c.vcap) + (c.pageSize - v.loc % c.pageSize + c.vhdr) =
    (v.next + 1) * c.pageSize + c.vhdr by omega] at this
  exact this

theorem VSim.off_full (h : c.VFile) (V : VSim c vmin s ks v) (he : s.length = (v.next + 1) * c.vcap) :
    Round c (v.loc + c.vhdr) ((v.next + 1) * c.pageSize + c.vhdr) ∧ v.loc % c.pageSize = 0 := by
  have hp := h.ps
  have e : (v.next + 1) * c.vcap = v.next * c.vcap + c.vcap := by ring
  have e2 : (v.next + 1) * c.pageSize = v.next * c.pageSize + c.pageSize := by ring
  have := V.loc
  rw [show v.next * c.pageSize + c.vhdr + (s.length - v.next * c.vcap) = (v.next + 1) * c.pageSize by omega] at this
  exact ⟨this.add _, by rw [this.page, Nat.mul_mod_left]⟩

/-- The image of the page in the variable write buffer that is stored. -/
def vout (v : Var) : Page := wr v.wbuf 0 (leBytes 4 v.next)

theorem vkey_out (c : Cfg) (v : Var) : vkey c (vout v) = vkey c v.wbuf := by
  unfold vkey vout
  rw [rd_wr_disj _ _ _ _ _ (by rw [leBytes_length]; omega)]

theorem vout_pay (c : Cfg) (v : Var) (o : Nat) : vout v (c.vhdr + o) = v.wbuf (c.vhdr + o) := by
  unfold vout
  exact wr_apply_out _ _ _ _ (by rw [leBytes_length]; unfold Cfg.vhdr; omega)

theorem storeVar_eq (h : c.VFile) (v : Var) : storeVar c v =
    ({ v with wbuf := vout v
              dev := { file := fun i => if i = v.next % c.numVar then some (vout v) else v.dev.file i
                       log := v.dev.log ++ [.write (v.next % c.numVar) (vout v)], reqs := v.dev.reqs + 1 }
              next := v.next + 1, avail := v.avail - 1 }, some v.next) := by
  unfold storeVar
  simp [Dev.write, h.io, vout]

theorem mod_add_pred {n m B : Nat} (hB : 0 < B) :
    (m % n + B - 1) % n = (m + B - 1) % n := by
  have e : m % n + B - 1 = m % n + (B - 1) := by omega
  have e2 : m + B - 1 = m + (B - 1) := by omega
  rw [e, e2, Nat.mod_add_mod]

/-- After the erase that makes room. -/
theorem VSim.erased (h : c.VFile) (V : VSim c vmin s ks v) (hid : c.eraseFx = id) (ha : v.avail = 0) :
    ∃ r : Var, (let x := v.dev.erase c (v.next % c.numVar) (v.next % c.numVar + c.B)
        readVar { v with dev := x.1, avail := v.avail + c.B } ((v.next % c.numVar + c.B - 1) % c.numVar)) = (r, true) ∧
      r.wbuf = v.wbuf ∧ r.loc = v.loc ∧ r.minRec = v.minRec ∧ r.next = v.next ∧ r.hasVar = v.hasVar ∧
      r.avail = c.B ∧ r.dev.file = v.dev.file ∧ vkey c r.rbuf = ks.getD (vmin + c.B - 1) 0 ∧
      (∀ ph, r.buffered = some ph → ph = (vmin + c.B - 1) % c.numVar) := by
  have hsum := V.sum
  have hB := h.B0
  have htwo := h.two
  have hnext : v.next = vmin + c.numVar := by omega
  have e : v.next % c.numVar = vmin % c.numVar := by rw [hnext, Nat.add_mod_right]
  have e2 : (v.next % c.numVar + c.B - 1) % c.numVar = (vmin + c.B - 1) % c.numVar := by
    rw [e]; exact mod_add_pred hB
  have hfile : (v.dev.erase c (v.next % c.numVar) (v.next % c.numVar + c.B)).1.file = v.dev.file := by
    simp only [Dev.erase, h.io, if_true, hid]
    funext i
    split_ifs <;> rfl
  obtain ⟨p, p1, p2, p3⟩ := V.stored (vmin + c.B - 1) (by omega) (by omega)
  rw [e2]
  simp only
  unfold readVar
  by_cases hb : v.buffered = some ((vmin + c.B - 1) % c.numVar)
  · simp only [hb, if_true]
    refine ⟨_, rfl, rfl, rfl, rfl, rfl, rfl, by simp only; omega, hfile, ?_, ?_⟩
    · rcases V.cache _ hb (vmin + c.B - 1) (by omega) (by omega) rfl with h1 | ⟨-, h1⟩
      · rw [p1] at h1
        cases h1
        exact p3
      · omega
    · intro ph hph
      simp only [hb, Option.some.injEq] at hph
      exact hph.symm
  · simp only [if_neg hb, hfile, p1]
    refine ⟨_, rfl, rfl, rfl, rfl, rfl, rfl, by simp only; omega, hfile, p3, ?_⟩
    intro ph hph
    simp only [Option.some.injEq] at hph
    exact hph.symm

/-- First stored page after a page write. -/
def vminAfter (c : Cfg) (vmin : Nat) (v : Var) : Nat := if v.avail = 0 then vmin + c.B else vmin

/-- `minVarRecordId` after a page write. -/
def minRecAfter (c : Cfg) (vmin : Nat) (ks : List Nat) (v : Var) : Nat :=
  if v.avail = 0 then (setLow c.keySize v.minRec (ks.getD (vmin + c.B - 1) 0) + 1) % 2 ^ 64 else v.minRec

/-- A page write of the variable file, followed by the start of a new page with the buffer `w0`. -/
theorem VSim.write (h : c.VFile) (V : VSim c vmin s ks v) (hid : 0 < v.avail ∨ c.eraseFx = id) :
    ∃ v1, writeVar c v = (v1, some v.next) ∧ v1.next = v.next + 1 ∧ v1.loc = v.loc ∧ v1.hasVar = v.hasVar ∧
      v1.minRec = minRecAfter c vmin ks v ∧
      ∀ (w0 : Page) (a : Nat), Round c a ((v.next + 1) * c.pageSize + c.vhdr) → (∀ o, o < c.vcap → w0 (c.vhdr + o) = 0) →
        VSim c (vminAfter c vmin v) (s ++ List.replicate ((v.next + 1) * c.vcap - s.length) 0) (ks ++ [vkey c v.wbuf])
          { v1 with wbuf := w0, loc := a } := by
  have hlo := V.lo
  have hhi := V.hi
  have hsum := V.sum
  have hB := h.B0
  have htwo := h.two
  have hnv := h.nv
  have hlen : (s ++ List.replicate ((v.next + 1) * c.vcap - s.length) (0 : Byte)).length = (v.next + 1) * c.vcap := by
    rw [List.length_append, List.length_replicate]; omega
  have hget : ∀ i, (s ++ List.replicate ((v.next + 1) * c.vcap - s.length) (0 : Byte)).getD i 0 = s.getD i 0 := by
    intro i
    simp only [List.getD_eq_getElem?_getD]
    by_cases hi : i < s.length
    · rw [List.getElem?_append_left hi]
    · rw [List.getElem?_append_right (by omega), List.getElem?_replicate, List.getElem?_eq_none (by omega)]
      split_ifs <;> rfl
  have hks : ∀ j, j < v.next → (ks ++ [vkey c v.wbuf]).getD j 0 = ks.getD j 0 := by
    intro j hj
    simp only [List.getD_eq_getElem?_getD]
    rw [List.getElem?_append_left (by rw [V.klen]; exact hj)]
  have hkn : (ks ++ [vkey c v.wbuf]).getD v.next 0 = vkey c v.wbuf := by
    simp only [List.getD_eq_getElem?_getD]
    rw [List.getElem?_append_right (by rw [V.klen])]
    simp [V.klen]
  -- the store itself
  have main : ∀ (u : Var) (m : Nat), u.wbuf = v.wbuf → u.next = v.next → u.dev.file = v.dev.file → vmin ≤ m →
      c.B ∣ m → u.next + u.avail = m + c.numVar → 0 < u.avail → (m = 0 ∨ u.avail ≤ c.B) →
      (∀ ph, u.buffered = some ph → ph < c.numVar ∧ ph < v.next) →
      (∀ ph, u.buffered = some ph → ∀ j, m ≤ j → j < v.next → j % c.numVar = ph →
        v.dev.file ph = some u.rbuf ∨ (0 < m ∧ m + c.numVar ≤ j + c.B)) →
      ∀ (w0 : Page) (a : Nat), Round c a ((v.next + 1) * c.pageSize + c.vhdr) → (∀ o, o < c.vcap → w0 (c.vhdr + o) = 0) →
        VSim c m (s ++ List.replicate ((v.next + 1) * c.vcap - s.length) 0) (ks ++ [vkey c v.wbuf])
          { (storeVar c u).1 with wbuf := w0, loc := a } := by
    intro u m u1 u2 u3 um ud us ua ut uN uc w0 a ha hw0
    rw [storeVar_eq h]
    have hout : vout u = wr v.wbuf 0 (leBytes 4 v.next) := by unfold vout; rw [u1, u2]
    have hne : ∀ j, m ≤ j → j < v.next → j % c.numVar ≠ v.next % c.numVar := by
      intro j j1 j2 hj
      have := mod_inj_window (N := c.numVar) (l := j) (m := v.next) (by omega) (by omega) hj
      omega
    constructor
    · simp only [hlen, u2]; exact le_refl _
    · simp only [hlen, u2]; exact Nat.mul_le_mul_right _ (by omega)
    · simp only [hlen, u2, Nat.sub_self, Nat.add_zero]; exact ha
    · simp [V.klen, u2]
    · exact ud
    · simp only; omega
    · rcases ut with h1 | h1
      · left; exact h1
      · right; simp only; omega
    · intro j j1 j2
      simp only [u2] at j2 ⊢
      by_cases hj : j < v.next
      · rw [if_neg (hne j j1 hj), u3]
        obtain ⟨p, p1, p2, p3⟩ := V.stored j (by omega) hj
        refine ⟨p, p1, ?_, ?_⟩
        · intro o ho; rw [hget]; exact p2 o ho
        · rw [hks j hj]; exact p3
      · have : j = v.next := by omega
        subst this
        rw [if_pos rfl]
        refine ⟨_, rfl, ?_, ?_⟩
        · intro o ho
          rw [vout_pay, u1, hget]
          exact V.buf o ho
        · rw [hkn, vkey_out, u1]
    · intro o ho
      simp only [u2]
      rw [hget, List.getD_eq_getElem?_getD, List.getElem?_eq_none (by omega)]
      exact hw0 o ho
    · intro ph hph
      have := uN ph hph
      simp only [u2]
      omega
    · intro ph hph j j1 j2 j3
      simp only [u2] at j2 ⊢
      have hph' : u.buffered = some ph := hph
      by_cases hj : j < v.next
      · rw [← j3, if_neg (hne j j1 hj), u3, j3]
        exact uc ph hph' j j1 hj j3
      · have hjn : j = v.next := by omega
        right
        have := uN ph hph'
        rcases ut with h1 | h1
        · -- unwrapped: the page is new
          exfalso
          rw [hjn] at j3
          rw [Nat.mod_eq_of_lt (by omega)] at j3
          omega
        · have hm0 : 0 < m := by
            rcases Nat.eq_zero_or_pos m with h0 | h0
            · exfalso
              rw [hjn, Nat.mod_eq_of_lt (by omega)] at j3
              omega
            · exact h0
          exact ⟨hm0, by omega⟩
    · intro ph p hp
      simp only [u2, u3] at hp ⊢
      by_cases hph : ph = v.next % c.numVar
      · have h1 := Nat.mod_lt v.next hnv
        have h2 := Nat.mod_le v.next c.numVar
        omega
      · rw [if_neg hph] at hp
        have := V.only ph p hp
        omega
  unfold writeVar vminAfter minRecAfter
  by_cases ha : v.avail = 0
  · have hid' : c.eraseFx = id := by rcases hid with h1 | h1; omega; exact h1
    obtain ⟨r, r1, r2, r3, r4, r5, r6, r7, r8, r9, r10⟩ := V.erased h hid' ha
    simp only at r1
    have hok : (v.dev.erase c (v.next % c.numVar) (v.next % c.numVar + c.B)).2 = true := by
      simp [Dev.erase, h.io]
    simp only [ha, if_true, hok]
    simp only [ha] at r1
    rw [r1]
    simp only [if_true]
    have r9' : leNat (rd r.rbuf 4 c.keySize) = ks.getD (vmin + c.B - 1) 0 := r9
    rw [r9', r4]
    obtain ⟨u, hu⟩ : ∃ u : Var, u = { r with minRec := (setLow c.keySize v.minRec (ks.getD (vmin + c.B - 1) 0) + 1) % 2 ^ 64 } := ⟨_, rfl⟩
    rw [← hu]
    have hm := main u (vmin + c.B) (by rw [hu]; exact r2) (by rw [hu]; exact r5) (by rw [hu]; exact r8) (by omega)
      ((Nat.dvd_add_right V.dvd).mpr (dvd_refl _)) (by rw [hu]; simp only; omega) (by rw [hu]; simp only; omega)
      (by rw [hu]; simp only; omega) (by
        intro ph hph
        rw [hu] at hph
        have := r10 ph hph
        have hlt := Nat.mod_lt (vmin + c.B - 1) hnv
        have hle := Nat.mod_le (vmin + c.B - 1) c.numVar
        omega) (by
        intro ph hph j j1 j2 j3
        rw [hu] at hph
        have := r10 ph hph
        rw [this] at j3
        have := mod_inj_window (N := c.numVar) (l := j) (m := vmin + c.B - 1) (by omega) (by omega) j3
        omega)
    have hu5 : u.next = v.next := by rw [hu]; exact r5
    refine ⟨(storeVar c u).1, ?_, ?_, ?_, ?_, ?_, hm⟩
    · rw [storeVar_eq h, hu5]
    · rw [storeVar_eq h]; simp only [hu5]
    · rw [storeVar_eq h, hu]; exact r3
    · rw [storeVar_eq h, hu]; exact r6
    · rw [storeVar_eq h, hu]
  · simp only [ha, if_false]
    refine ⟨(storeVar c v).1, by rw [storeVar_eq h], by rw [storeVar_eq h], by rw [storeVar_eq h], by rw [storeVar_eq h],
      by rw [storeVar_eq h], ?_⟩
    exact main v vmin rfl rfl rfl (le_refl _) V.dvd hsum (by omega) (by rcases V.tight with h1 | h1; exact Or.inl h1; right; omega)
      V.cacheN V.cache

end

end EDB
