import Verif.Proofs.VarRead
import Verif.Proofs.IdxScan

/-! Helper lemmas: a table together with its variable data. -/

namespace EDB

open Spec (Log VLog VOp VOut)

/-- End of a piece of data in the stream. -/
def Ent.fin (e : Ent) : Nat := e.a + 4 + e.bs.length

/-- The stream contains the piece of data, its length field within one page. -/
structure EntOk (c : Cfg) (s : List Byte) (e : Ent) : Prop where
  len : e.bs.length < 2 ^ 32
  fits : e.a % c.vcap + 4 ≤ c.vcap
  here : ∃ pre post, pre.length = e.a ∧ s = pre ++ (leBytes 4 e.bs.length ++ e.bs) ++ post

/-- All data recorded is in the stream, in the order of the keys. -/
structure EntsOk (c : Cfg) (g : Gh) : Prop where
  ok : ∀ e ∈ g.es, EntOk c g.s e
  sorted : g.es.Pairwise (fun e e' => e.key < e'.key ∧ e.fin ≤ e'.a)

/-- The locations stored with the records of a page. -/
def LocOk (c : Cfg) (es : List Ent) (p : Page) : Prop :=
  ∀ i, i < pageCount p → (slotLoc c p i = noVar ∧ ∀ e ∈ es, e.key ≠ slotKey c p i) ∨
    ∃ e ∈ es, e.key = slotKey c p i ∧ slotLoc c p i = vaddr c e.a % (c.numVar * c.pageSize)

/-- The variable data of the records of a page ends before byte `n`. -/
def DataBelow (c : Cfg) (es : List Ent) (n : Nat) (p : Page) : Prop :=
  ∀ i, i < pageCount p → ∀ e ∈ es, e.key = slotKey c p i → e.fin ≤ n

/-- A table with variable data, started (new or recovered) with first retained page `mn`.  `lv` is a lower bound of the
keys that may be inserted. -/
structure VTableM (c : Cfg) (lo lv K mn : Nat) (E : Mode) (d : Data) (v : Var) (l : VLog) (g : Gh) : Prop where
  tab : TableM c lo K mn d l.log
  inv : VInv c E lv K g v
  opn : Open c g v
  ents : EntsOk c g
  known : ∀ e ∈ g.es, ∃ r ∈ l.log.all, r.1 = e.key
  vars : ∀ e ∈ g.es, l.var e.key = some e.bs
  novar : ∀ r ∈ l.log.live mn, (∀ e ∈ g.es, e.key ≠ r.1) → l.var r.1 = none
  locs : ∀ n, d.min ≤ n → n < d.next → ∀ p, d.dev.file (n % c.N) = some p →
    LocOk c g.es p ∧ DataBelow c g.es (v.next * c.vcap) p
  lbuf : LocOk c g.es d.wbuf

/-- A table with variable data that was started new. -/
abbrev VTable (c : Cfg) (lo K : Nat) (E : Mode) (d : Data) (v : Var) (l : VLog) (g : Gh) : Prop := VTableM c lo lo K 0 E d v l g

section
variable {c : Cfg} {lo K a : Nat} {E : Mode} {d : Data} {v : Var} {L : Log} {g : Gh} {s : List Byte}

/-! ### Pieces of data -/

theorem EntOk.append {e : Ent} (h : EntOk c s e) (t : List Byte) : EntOk c (s ++ t) e := by
  obtain ⟨pre, post, h1, h2⟩ := h.here
  refine ⟨h.len, h.fits, pre, post ++ t, h1, ?_⟩
  rw [h2]; simp only [List.append_assoc]

theorem EntOk.fin_le {e : Ent} (h : EntOk c s e) : e.fin ≤ s.length := by
  obtain ⟨pre, post, h1, h2⟩ := h.here
  rw [h2]
  simp only [List.length_append, leBytes_length, Ent.fin]
  omega

theorem EntOk.bytes {e : Ent} (h : EntOk c s e) : slice s (e.a + 4) e.bs.length = e.bs := by
  obtain ⟨pre, post, h1, h2⟩ := h.here
  have : s = (pre ++ leBytes 4 e.bs.length) ++ e.bs ++ post := by rw [h2]; simp only [List.append_assoc]
  rw [this]
  have h3 : (pre ++ leBytes 4 e.bs.length).length = e.a + 4 := by
    rw [List.length_append, leBytes_length, h1]
  rw [← h3]
  exact slice_mid _ _ _

theorem EntOk.length {e : Ent} (h : EntOk c s e) : leNat (slice s e.a 4) = e.bs.length := by
  obtain ⟨pre, post, h1, h2⟩ := h.here
  have : s = pre ++ leBytes 4 e.bs.length ++ (e.bs ++ post) := by rw [h2]; simp only [List.append_assoc]
  rw [this, ← h1]
  have := slice_mid pre (leBytes 4 e.bs.length) (e.bs ++ post)
  rw [leBytes_length] at this
  rw [this, leNat_leBytes_of_lt]
  have := h.len
  omega

theorem EntsOk.append (h : EntsOk c g) {g' : Gh} {t : List Byte} (hs : g'.s = g.s ++ t) (he : g'.es = g.es) : EntsOk c g' :=
  ⟨fun e hm => by rw [hs]; exact (h.ok e (by rw [← he]; exact hm)).append t, by rw [he]; exact h.sorted⟩

theorem EntsOk.order (h : EntsOk c g) {e e' : Ent} (h1 : e ∈ g.es) (h2 : e' ∈ g.es) (hk : e.key ≤ e'.key) : e.a ≤ e'.a := by
  obtain ⟨i, hi, rfl⟩ := List.mem_iff_getElem.mp h1
  obtain ⟨j, hj, rfl⟩ := List.mem_iff_getElem.mp h2
  have hp := List.pairwise_iff_getElem.mp h.sorted
  rcases Nat.lt_trichotomy i j with hij | hij | hij
  · have := (hp i j hi hj hij).2
    unfold Ent.fin at this
    omega
  · subst hij; exact le_refl _
  · have := (hp j i hj hi hij).1
    omega

theorem EntsOk.key_inj (h : EntsOk c g) {e e' : Ent} (h1 : e ∈ g.es) (h2 : e' ∈ g.es) (hk : e.key = e'.key) : e = e' := by
  obtain ⟨i, hi, rfl⟩ := List.mem_iff_getElem.mp h1
  obtain ⟨j, hj, rfl⟩ := List.mem_iff_getElem.mp h2
  have hp := List.pairwise_iff_getElem.mp h.sorted
  rcases Nat.lt_trichotomy i j with hij | hij | hij
  · have := (hp i j hi hj hij).1; omega
  · subst hij; rfl
  · have := (hp j i hj hi hij).1; omega

/-! ### Locations on pages -/

theorem SameRecs.slotLoc {p q : Page} (h : SameRecs c p q) (i : Nat) : slotLoc c p i = slotLoc c q i := by
  unfold EDB.slotLoc
  rw [rd_ext]
  intro j hj _
  exact h.area j (by unfold slotOff at hj; omega)

theorem SameRecs.locOk {p q : Page} (h : SameRecs c p q) {es : List Ent} (H : LocOk c es q) : LocOk c es p := by
  intro i hi
  rw [h.count] at hi
  rw [h.slotLoc, h.slotKey]
  exact H i hi

theorem SameRecs.below {p q : Page} (h : SameRecs c p q) {es : List Ent} {n : Nat} (H : DataBelow c es n q) :
    DataBelow c es n p := by
  intro i hi
  rw [h.count] at hi
  rw [h.slotKey]
  exact H i hi

theorem recSize_vdata (hv : c.useVdata = true) : c.recSize = c.keySize + c.dataSize + 4 := by
  unfold Cfg.recSize; rw [if_pos hv]

theorem append_loc_old (hL : c.Layout) (hv : c.useVdata = true) (p : Page) (key : Nat) (data : List Byte) (loc : Nat)
    (hd : data.length = c.dataSize) {i : Nat} (hi : i < pageCount p) :
    slotLoc c (appendRec c p key data loc) i = slotLoc c p i := by
  rw [(appendRec_same hL p key data loc hd).slotLoc]
  unfold slotLoc
  rw [rd_ext]
  intro j h1 h2
  have hh := hdr_ge c
  have := slotOff_succ_le c hi
  have := recSize_vdata hv
  have := slotOff_ge c i
  exact appendCore_out c p key data loc hd j (by omega) (by omega)

theorem append_loc_new (hL : c.Layout) (hv : c.useVdata = true) (p : Page) (key : Nat) (data : List Byte) (loc : Nat)
    (hd : data.length = c.dataSize) (hl : loc < 2 ^ 32) :
    slotLoc c (appendRec c p key data loc) (pageCount p) = loc := by
  rw [(appendRec_same hL p key data loc hd).slotLoc]
  have hh := hdr_ge c
  have hs := slotOff_ge c (pageCount p)
  unfold slotLoc appendCore incCount
  simp only [hv, if_true]
  rw [rd_wr_disj _ _ _ _ _ (by rw [leBytes_length]; omega), rd_wr_same _ _ _ (leBytes_length _ _), leNat_leBytes_of_lt]
  omega

theorem append_key (hok : c.Ok K) (p : Page) (key : Nat) (data : List Byte) (loc : Nat)
    (hd : data.length = c.dataSize) (hk : key < 256 ^ c.keySize) :
    (∀ i, i < pageCount p → slotKey c (appendRec c p key data loc) i = slotKey c p i) ∧
      slotKey c (appendRec c p key data loc) (pageCount p) = key := by
  constructor
  · intro i hi
    rw [(appendRec_same hok.layout p key data loc hd).slotKey]
    exact appendCore_key_old c p key data loc hd hi
  · rw [(appendRec_same hok.layout p key data loc hd).slotKey]
    exact appendCore_key_new c p key data loc hk

/-- The locations after a record was appended. -/
theorem LocOk.append (hok : c.Ok K) (hv : c.useVdata = true) {p : Page} {es' : List Ent} (H : LocOk c es' p) {key : Nat} {data : List Byte}
    {loc : Nat} (hd : data.length = c.dataSize) (hk : key < 256 ^ c.keySize) (hl : loc < 2 ^ 32) (hn : pageCount p < 65535)
    (hnew : (loc = noVar ∧ ∀ e ∈ es', e.key ≠ key) ∨ ∃ e ∈ es', e.key = key ∧ loc = vaddr c e.a % (c.numVar * c.pageSize)) :
    LocOk c es' (appendRec c p key data loc) := by
  intro i hi
  rw [append_count hok _ _ _ _ hd hn] at hi
  obtain ⟨k1, k2⟩ := append_key hok p key data loc hd hk
  by_cases h : i < pageCount p
  · rw [append_loc_old hok.layout hv p key data loc hd h, k1 i h]
    exact H i h
  · have : i = pageCount p := by omega
    subst this
    rw [append_loc_new hok.layout hv p key data loc hd hl, k2]
    exact hnew

/-- A new piece of data with a key that is not on the page changes nothing. -/
theorem LocOk.more {p : Page} {es : List Ent} (H : LocOk c es p) (e0 : Ent) (hne : ∀ i, i < pageCount p → slotKey c p i ≠ e0.key) :
    LocOk c (es ++ [e0]) p := by
  intro i hi
  rcases H i hi with ⟨h1, h2⟩ | ⟨e, e1, e2, e3⟩
  · left
    refine ⟨h1, ?_⟩
    intro e he
    rcases List.mem_append.mp he with h | h
    · exact h2 e h
    · rw [List.mem_singleton.mp h]; exact Ne.symm (hne i hi)
  · right
    exact ⟨e, List.mem_append_left _ e1, e2, e3⟩

theorem DataBelow.more {p : Page} {es : List Ent} {n : Nat} (H : DataBelow c es n p) (e0 : Ent)
    (hne : ∀ i, i < pageCount p → slotKey c p i ≠ e0.key) : DataBelow c (es ++ [e0]) n p := by
  intro i hi e he hk
  rcases List.mem_append.mp he with h | h
  · exact H i hi e h hk
  · rw [List.mem_singleton.mp h] at hk
    exact absurd hk.symm (hne i hi)

theorem DataBelow.mono {p : Page} {es : List Ent} {n m : Nat} (H : DataBelow c es n p) (h : n ≤ m) : DataBelow c es m p :=
  fun i hi e he hk => le_trans (H i hi e he hk) h

/-! ### Setting up a stream -/

theorem vaddr_div (h : c.VFile) (q : Nat) : vaddr c q / c.pageSize = q / c.vcap := by
  have hps := h.ps
  have hm : q % c.vcap < c.vcap := Nat.mod_lt _ (by have := h.cap4; omega)
  unfold vaddr
  rw [Nat.add_assoc, Nat.mul_comm, Nat.mul_add_div (by omega), Nat.div_eq_of_lt (show c.vhdr + q % c.vcap < c.pageSize by omega)]
  rfl

theorem vaddr_mod (h : c.VFile) (q : Nat) : vaddr c q % c.pageSize = c.vhdr + q % c.vcap := by
  have hps := h.ps
  have hm : q % c.vcap < c.vcap := Nat.mod_lt _ (by have := h.cap4; omega)
  unfold vaddr
  rw [Nat.add_assoc, Nat.mul_comm, Nat.mul_add_mod, Nat.mod_eq_of_lt (by omega)]

theorem At.mod (off q : Nat) (h1 : off % c.pageSize = c.vhdr + q % c.vcap)
    (h2 : off / c.pageSize % c.numVar = q / c.vcap % c.numVar) : At c (off % (c.numVar * c.pageSize)) q := by
  constructor
  · rw [Nat.mod_mul_left_mod]; exact h1
  · rw [Nat.mod_mul_left_div_self, Nat.mod_mod]; exact h2

/-- The address after the length field. -/
theorem after_len (h : c.VFile) {q : Nat} (hf : q % c.vcap + 4 ≤ c.vcap) :
    At c (let a := (vaddr c q % (c.numVar * c.pageSize) + 4) % (c.numVar * c.pageSize)
          if a % c.pageSize = 0 then (a + c.vhdr) % (c.numVar * c.pageSize) else a) (q + 4) := by
  have hps := h.ps
  have hcap := h.cap4
  have hvh : 4 ≤ c.vhdr := by unfold Cfg.vhdr; omega
  have hdm : q / c.vcap * c.vcap + q % c.vcap = q := Nat.div_add_mod' q c.vcap
  simp only [Nat.mod_add_mod]
  rw [Nat.mod_mul_left_mod]
  have hva : vaddr c q + 4 = c.pageSize * (q / c.vcap) + (c.vhdr + q % c.vcap + 4) := by
    unfold vaddr; rw [Nat.mul_comm]; omega
  by_cases hb : q % c.vcap + 4 = c.vcap
  · have e1 : vaddr c q + 4 = (q / c.vcap + 1) * c.pageSize := by
      rw [hva, Nat.add_mul, Nat.one_mul, Nat.mul_comm]; omega
    have e2 : q + 4 = (q / c.vcap + 1) * c.vcap := by rw [Nat.add_mul, Nat.one_mul]; omega
    rw [if_pos (by rw [e1, Nat.mul_mod_left])]
    apply At.mod
    · rw [e1, e2, Nat.mul_mod_left, Nat.mul_comm, Nat.mul_add_mod, Nat.mod_eq_of_lt (by omega)]; rfl
    · rw [e1, e2, Nat.mul_div_cancel _ (by omega), Nat.mul_comm, Nat.mul_add_div (by omega), Nat.div_eq_of_lt (show c.vhdr < c.pageSize by omega),
        Nat.add_zero]
  · have hm : (vaddr c q + 4) % c.pageSize = c.vhdr + q % c.vcap + 4 := by
      rw [hva, Nat.mul_add_mod, Nat.mod_eq_of_lt (by omega)]
    have hd : (vaddr c q + 4) / c.pageSize = q / c.vcap := by
      rw [hva, Nat.mul_add_div (by omega), Nat.div_eq_of_lt (show c.vhdr + q % c.vcap + 4 < c.pageSize by omega), Nat.add_zero]
    have e1 : (q + 4) % c.vcap = q % c.vcap + 4 := by
      conv_lhs => rw [← hdm, Nat.add_assoc, Nat.mul_comm, Nat.mul_add_mod]
      exact Nat.mod_eq_of_lt (by omega)
    have e2 : (q + 4) / c.vcap = q / c.vcap := by
      conv_lhs => rw [← hdm, Nat.add_assoc, Nat.mul_comm, Nat.mul_add_div (by omega)]
      rw [Nat.div_eq_of_lt (show q % c.vcap + 4 < c.vcap by omega)]; rfl
    rw [if_neg (by omega)]
    apply At.mod
    · rw [hm, e1]; omega
    · rw [hd, e2]

/-- Pages of the stream that are stored. -/
theorem VInv.holds (h : c.VFile) (I : VInv c E lo K g v) {q n : Nat} (h1 : g.vmin ≤ q / c.vcap) (h2 : q + n ≤ v.next * c.vcap) :
    Holds c v g.s q n := by
  intro j j1 j2
  have hj : j < v.next := by
    by_contra hcon
    have := Nat.mul_le_mul_right c.vcap (show v.next ≤ j by omega)
    omega
  obtain ⟨p, p1, p2, -⟩ := I.sim.stored j (by have := I.base_le.1; omega) hj
  exact ⟨p, p1, p2⟩

/-- `minVarRecordId` separates the data that is gone from the data still stored. -/
theorem VInv.min_le (h : c.VFile) (I : VInv c E lo K g v) (hes : EntsOk c g) {e : Ent} (he : e ∈ g.es) :
    (v.minRec % 256 ^ c.keySize ≤ e.key ↔ g.vmin ≤ e.a / c.vcap) ∧ v.minRec % 256 ^ c.keySize < K := by
  have hb := I.bound e he
  rcases I.minOk with ⟨-, h2, -⟩ | ⟨h1, e1, -, e3⟩ | ⟨h1, h2⟩
  · rw [h2] at he; cases he
  · rw [h1]
    exact ⟨⟨fun _ => Nat.zero_le _, fun _ => e3 e he⟩, by omega⟩
  · have hE : E := by rcases I.wrap with h3 | h3; omega; exact h3
    obtain ⟨e1, e2⟩ := (I.keys hE).pages _ (I.vmin_lt h h1)
    have := e2 e he
    rw [h2]
    exact ⟨by omega, by omega⟩

/-- Looking for data whose place is known: it is refused if its key is below `minVarRecordId`; otherwise its page is read. -/
theorem setup_core (h : c.VFile) (hc : CmpOk c.cmpKey K) (hs : VSync v) {e : Ent} (eo : EntOk c s e) (hb : e.key + 1 < K) {t : Nat}
    (m1 : v.minRec % 256 ^ c.keySize ≤ e.key ↔ t ≤ e.a / c.vcap) (m2 : v.minRec % 256 ^ c.keySize < K)
    (hh : t ≤ e.a / c.vcap → Holds c v s e.a 4) {i : Nat} (hloc : slotLoc c d.rbuf i = vaddr c e.a % (c.numVar * c.pageSize)) :
    (e.a / c.vcap < t → setupStream c d v e.key i = .ok (v, 1, none)) ∧
    (t ≤ e.a / c.vcap → ∃ v' st, setupStream c d v e.key i = .ok (v', 0, some st) ∧ VSame v v' ∧ VSync v' ∧
      st.total = e.bs.length ∧ st.read = 0 ∧ At c st.off (e.a + 4)) := by
  have hps := h.ps
  have hcap := h.cap4
  have hne : vaddr c e.a % (c.numVar * c.pageSize) ≠ noVar := by
    have := h.mem
    have hpos : 0 < c.numVar * c.pageSize := Nat.mul_pos h.nv (by omega)
    have := Nat.mod_lt (vaddr c e.a) hpos
    unfold noVar
    omega
  have hfit := eo.fits
  unfold setupStream
  simp only [hloc]
  rw [if_neg hne]
  constructor
  · intro hlt
    rw [if_pos ((hc.lt _ _ (by omega) m2).mpr (by
      by_contra hcon
      exact absurd (m1.mp (by omega)) (by omega)))]
  · intro hle
    have hle' := m1.mpr hle
    rw [if_neg (fun hcon => by have := (hc.lt _ _ (by omega) m2).mp hcon; omega)]
    rw [Nat.mod_mul_left_div_self, vaddr_div h, Nat.mod_mod, Nat.mod_mul_left_mod, vaddr_mod h]
    obtain ⟨p, p1, p2⟩ := (hh hle) (e.a / c.vcap) (le_refl _)
      (by have := Nat.div_mul_le_self e.a c.vcap; omega)
    obtain ⟨r1, r2, r3⟩ := readVar_sync hs (e.a / c.vcap % c.numVar)
    obtain ⟨r4, r5⟩ := r3 p p1
    rw [if_pos r4, if_neg (by omega)]
    refine ⟨_, _, rfl, r1, r2, ?_, rfl, after_len h hfit⟩
    simp only
    rw [r5, rd_page p2 hfit, Nat.div_add_mod']
    exact eo.length

theorem setup_ok (h : c.VFile) (hc : CmpOk c.cmpKey K) (I : VInv c E lo K g v) (hes : EntsOk c g) (hs : VSync v) {e : Ent} (he : e ∈ g.es)
    (hfin : e.fin ≤ v.next * c.vcap) {i : Nat} (hloc : slotLoc c d.rbuf i = vaddr c e.a % (c.numVar * c.pageSize)) :
    (e.a / c.vcap < g.vmin → setupStream c d v e.key i = .ok (v, 1, none)) ∧
    (g.vmin ≤ e.a / c.vcap → ∃ v' st, setupStream c d v e.key i = .ok (v', 0, some st) ∧ VSame v v' ∧ VSync v' ∧
      st.total = e.bs.length ∧ st.read = 0 ∧ At c st.off (e.a + 4)) := by
  obtain ⟨m1, m2⟩ := I.min_le h hes he
  refine setup_core h hc hs (hes.ok e he) (I.bound e he) m1 m2 (fun hle => ?_) hloc
  unfold Ent.fin at hfin
  exact I.holds h hle (by omega)

theorem readAll_core (h : c.VFile) (hs : VSync v) {e : Ent} (eo : EntOk c s e) {st : Stream} (hh : Holds c v s (e.a + 4) e.bs.length)
    (h1 : st.total = e.bs.length) (h2 : st.read = 0) (h3 : At c st.off (e.a + 4)) :
    ∃ v', readAll c v (some st) = .ok (v', some e.bs) ∧ VSame v v' ∧ VSync v' := by
  have hm : min st.total (st.total - st.read) = e.bs.length := by omega
  obtain ⟨v', st', q1, q2, q3, -, -, -⟩ := streamRead_ok (s := s) (len := st.total) h hs h3 (by
    rw [hm]
    exact hh)
  refine ⟨v', ?_, q2, q3⟩
  simp only [readAll]
  rw [q1, Res.ok_bind, hm, eo.bytes]

/-- Reading the whole stream. -/
theorem readAll_ok (h : c.VFile) (I : VInv c E lo K g v) (hes : EntsOk c g) (hs : VSync v) {e : Ent} (he : e ∈ g.es)
    (hfin : e.fin ≤ v.next * c.vcap) (hst : g.vmin ≤ e.a / c.vcap) {st : Stream} (h1 : st.total = e.bs.length)
    (h2 : st.read = 0) (h3 : At c st.off (e.a + 4)) :
    ∃ v', readAll c v (some st) = .ok (v', some e.bs) ∧ VSame v v' ∧ VSync v' := by
  refine readAll_core h hs (hes.ok e he) ?_ h1 h2 h3
  unfold Ent.fin at hfin
  exact I.holds h (le_trans hst (Nat.div_le_div_right (by omega))) (by omega)

end

end EDB
