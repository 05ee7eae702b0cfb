import Verif.Proofs.VarLife

/-! Helper lemmas: the table found after a power failure. -/

namespace EDB

open Spec (Log VLog VOp VOut)

/-- The first `w` pages of a file. -/
def Upto (f : Nat → Option Page) (w : Nat) (f' : Nat → Option Page) : Prop := ∀ ph, f ph = if ph < w then f' ph else none

/-- The entries of some records. -/
def keepEnts (rs : List Rec) (es : List Ent) : List Ent := es.filter fun e => rs.any fun r => r.1 == e.key

section
variable {c : Cfg} {lo K P R lv : Nat} {d d' : Data} {x x' : Idx} {v v' : Var} {l l' : VLog} {g g' : Gh} {op : VOp} {o : VOut} {D V : Dev}

theorem Upto.trans {f f' f'' : Nat → Option Page} {w w' : Nat} (h : Upto f w f') (h' : Upto f' w' f'') (hw : w ≤ w') : Upto f w f'' := by
  intro ph
  rw [h ph]
  split_ifs with h1
  · rw [h' ph, if_pos (by omega)]
  · rfl

theorem mem_keep {rs : List Rec} {es : List Ent} {e : Ent} : e ∈ keepEnts rs es ↔ e ∈ es ∧ ∃ r ∈ rs, r.1 = e.key := by
  unfold keepEnts
  rw [List.mem_filter, List.any_eq_true]
  simp only [beq_iff_eq]

theorem EntOk.take {s : List Byte} {e : Ent} {n : Nat} (h : EntOk c s e) (hn : e.fin ≤ n) : EntOk c (s.take n) e := by
  obtain ⟨pre, post, h1, h2⟩ := h.here
  refine ⟨h.len, h.fits, pre, post.take (n - e.fin), h1, ?_⟩
  have hl : (pre ++ (leBytes 4 e.bs.length ++ e.bs)).length = e.fin := by
    simp only [List.length_append, leBytes_length, Ent.fin]; omega
  rw [h2, List.take_append, List.take_of_length_le (by omega), hl]

theorem slot_in_live {L : Log} {a : Nat} (S : Sim c lo K a d L) {n : Nat} (h1 : d.min ≤ n) (h2 : n < d.next) {p : Page}
    (hp : d.dev.file (n % c.N) = some p) {i : Nat} (hi : i < pageCount p) : ∃ r ∈ L.live d.min, r.1 = slotKey c p i := by
  have hl : n < L.pages.length := by rw [← S.next]; exact h2
  obtain ⟨q, q1, q2, -⟩ := S.stored n h1 hl
  rw [hp] at q1
  cases q1
  exact ⟨_, mem_live.mpr (Or.inl ⟨n, hl, h1, by rw [← q2]; exact mem_recs.mpr ⟨i, hi, rfl⟩⟩), rfl⟩

/-- The table put together from a recovered data file and the first `w` pages of the variable data file. -/
theorem vtable_opened (hv : c.VFile) {w m mn lv' : Nat} {dn : Data} {vn : Var} {ln : VLog} (hK : K ≤ 256 ^ c.keySize)
    (T' : VTableM c lo lv K m False d' v' l' g') (hw : w < c.numVar) (hw' : w ≤ v'.next) (tab : TableM c lo K mn dn ln.log) (hbuf : ln.log.buf = [])
    (hmin : dn.min = mn) (hvar : ln.var = l'.var)
    (hsub : ∀ r ∈ ln.log.live mn, r ∈ l'.log.live m)
    (hnext : vn.next = w) (hwb : vn.wbuf = fun _ => 0) (hloc : vn.loc = w * c.pageSize + c.vhdr) (hav : vn.avail = c.numVar - w)
    (hs : VSync vn) (hup : Upto vn.dev.file w v'.dev.file)
    (hrec : ((w = 0 ∨ ln.log.live mn = []) ∧ vn.minRec = 2 ^ 64 - 1) ∨ (vn.minRec = lv' ∧ lv' + 1 < K ∧ ∀ r ∈ ln.log.live mn, lv' ≤ r.1))
    (hlocs : ∀ n, mn ≤ n → n < dn.next → ∀ p, dn.dev.file (n % c.N) = some p → LocOk c g'.es p ∧ DataBelow c g'.es (w * c.vcap) p) :
    VTableM c lo lv' K mn False dn vn ln ⟨0, g'.s.take (w * c.vcap), g'.ks.take w, keepEnts (ln.log.live mn) g'.es⟩ := by
  have hcap := hv.cap4
  have hlen : (g'.s.take (w * c.vcap)).length = w * c.vcap := by
    rw [List.length_take]
    have := T'.inv.sim.lo
    have := Nat.mul_le_mul_right c.vcap hw'
    omega
  have hv0 : g'.vmin = 0 := T'.inv.wrap.resolve_right id
  have hstored := T'.inv.sim.stored
  rw [T'.inv.base0 hv0] at hstored
  -- where the entries are
  have hbelow : ∀ e ∈ keepEnts (ln.log.live mn) g'.es, e.fin ≤ w * c.vcap := by
    intro e he
    obtain ⟨e1, r, r1, r2⟩ := mem_keep.mp he
    rcases mem_live.mp r1 with ⟨n, n1, n2, q2⟩ | q2
    · obtain ⟨p, p1, p2, -⟩ := tab.sim.stored n (by omega) n1
      rw [← p2] at q2
      obtain ⟨i, i1, i2⟩ := mem_recs.mp q2
      have hn : n < dn.next := by rw [tab.sim.next]; exact n1
      exact (hlocs n n2 hn p p1).2 i i1 e e1 (by rw [← r2, i2])
    · rw [hbuf] at q2
      cases q2
  have hkeep : ∀ e ∈ g'.es, ∀ n, mn ≤ n → n < dn.next → ∀ p, dn.dev.file (n % c.N) = some p → ∀ i, i < pageCount p → e.key = slotKey c p i →
      e ∈ keepEnts (ln.log.live mn) g'.es := by
    intro e he n hmn hn p hp i hi hk
    obtain ⟨r, r1, r2⟩ := slot_in_live tab.sim (by omega) hn hp hi
    rw [hmin] at r1
    exact mem_keep.mpr ⟨he, r, r1, by rw [r2, hk]⟩
  have hb0 : vbase c vn = 0 := by unfold vbase; omega
  refine ⟨tab, ⟨?_, ⟨le_refl _, Or.inl ⟨hb0.symm, Or.inl hb0⟩⟩, fun h => h.elim, ?_, Or.inl rfl, fun h => h.elim, ?_⟩, ?_, ⟨?_, ?_⟩, ?_, ?_, ?_, ?_, ?_⟩
  · rw [hb0]
    refine ⟨by simp only [hlen, hnext]; omega, ?_, by simp only [hlen, hnext, hloc, Nat.sub_self]; exact Round.refl _ _, ?_, dvd_zero _, by omega, Or.inl rfl, ?_, ?_, ?_, ?_, ?_⟩
    · simp only [hlen, hnext]
      exact Nat.mul_le_mul_right _ (by omega)
    · simp only [hnext]
      rw [List.length_take, T'.inv.sim.klen]
      omega
    · intro j _ hj
      rw [hnext] at hj
      obtain ⟨p, p1, p2, p3⟩ := hstored j (Nat.zero_le _) (by omega)
      have hjm : j % c.numVar = j := Nat.mod_eq_of_lt (by omega)
      refine ⟨p, ?_, ?_, ?_⟩
      · rw [hjm] at p1 ⊢
        rw [hup, if_pos hj]
        exact p1
      · intro o ho
        rw [p2 o ho]
        simp only [List.getD_eq_getElem?_getD]
        have h2 := Nat.mul_le_mul_right c.vcap (show j + 1 ≤ w by omega)
        rw [Nat.add_mul, Nat.one_mul] at h2
        rw [List.getElem?_take_of_lt (by omega)]
      · rw [p3]
        simp only [List.getD_eq_getElem?_getD]
        rw [List.getElem?_take_of_lt hj]
    · intro o ho
      rw [hwb, hnext]
      simp only [List.getD_eq_getElem?_getD]
      rw [List.getElem?_eq_none (by rw [hlen]; omega)]
      rfl
    · intro ph hph
      have h1 := hs ph hph
      rw [hup] at h1
      split_ifs at h1 with h2
      exact ⟨by omega, by omega⟩
    · intro ph hph j _ _ _
      exact Or.inl (hs ph hph)
    · intro ph p hp
      rw [hup] at hp
      split_ifs at hp with h2
      exact ⟨by omega, by omega⟩
  · unfold MinOk
    rcases hrec with ⟨h1, h2⟩ | ⟨h1, h2⟩
    · refine Or.inl ⟨rfl, ?_, h2⟩
      rw [List.eq_nil_iff_forall_not_mem]
      intro e he
      rcases h1 with h1 | h1
      · have := hbelow e he
        rw [h1, Nat.zero_mul] at this
        unfold Ent.fin at this
        omega
      · obtain ⟨-, r, r1, -⟩ := mem_keep.mp he
        rw [h1] at r1
        cases r1
    · obtain ⟨h2, h3⟩ := h2
      have e1 : vn.minRec % 256 ^ c.keySize = lv' := by rw [h1]; exact Nat.mod_eq_of_lt (by omega)
      refine Or.inr (Or.inl ⟨rfl, by omega, Or.inl (by omega), ?_⟩)
      intro e he
      obtain ⟨-, r, r1, r2⟩ := mem_keep.mp he
      have := h3 r r1
      omega
  · intro e he
    exact T'.inv.bound e (mem_keep.mp he).1
  · unfold Open
    simp only [hlen, hnext]
    rw [Nat.add_mul]
    omega
  · intro e he
    exact (T'.ents.ok e (mem_keep.mp he).1).take (hbelow e he)
  · exact T'.ents.sorted.filter _
  · intro e he
    obtain ⟨r, r1, r2⟩ := (mem_keep.mp he).2
    exact ⟨r, mem_all_of_live r1, r2⟩
  · intro e he
    rw [hvar]
    exact T'.vars e (mem_keep.mp he).1
  · intro r hr hno
    rw [hvar]
    refine T'.novar r (hsub r hr) (fun e he hk => ?_)
    exact hno e (mem_keep.mpr ⟨he, r, hr, hk.symm⟩) hk
  · intro n hmn hn p hp
    rw [hmin] at hmn
    obtain ⟨h1, h2⟩ := hlocs n hmn hn p hp
    refine ⟨?_, ?_⟩
    · intro i hi
      rcases h1 i hi with ⟨q1, q2⟩ | ⟨e, q1, q2, q3⟩
      · exact Or.inl ⟨q1, fun e he => q2 e (mem_keep.mp he).1⟩
      · exact Or.inr ⟨e, hkeep e q1 n hmn hn p hp i hi q2, q2, q3⟩
    · intro i hi e he hk
      rw [hnext]
      exact h2 i hi e (mem_keep.mp he).1 hk
  · intro i hi
    have := tab.sim.buf
    rw [hbuf] at this
    have h2 := congrArg List.length this
    rw [recs_length] at h2
    simp at h2
    omega

/-! ### What a power failure leaves -/

theorem Grow.upto (G : Grow c v v') (h1 : v'.next + v'.avail = v.next + v.avail) (h2 : v.next + v.avail = c.numVar)
    (honly : ∀ ph p, v.dev.file ph = some p → ph < v.next) : v.next ≤ v'.next ∧ Upto v.dev.file v.next v'.dev.file ∧
      ∀ j, ∃ w, v.next ≤ w ∧ w ≤ v'.next ∧ Upto (cutFrom c v.dev v'.dev j).file w v'.dev.file := by
  obtain ⟨ps, g1, g2, g3, -⟩ := G.grow h1 h2
  have hno : ∀ ph, v.next ≤ ph → v.dev.file ph = none := by
    intro ph h
    cases hp : v.dev.file ph with
    | none => rfl
    | some p => exact absurd (honly ph p hp) (by omega)
  refine ⟨by omega, ?_, ?_⟩
  · intro ph
    split_ifs with h
    · rw [g3]; unfold placed; rw [if_neg (by omega)]
    · exact hno ph (by omega)
  · intro j
    have hl : (ps.take j).length ≤ ps.length := by rw [List.length_take]; omega
    refine ⟨v.next + (ps.take j).length, by omega, by omega, ?_⟩
    intro ph
    unfold cutFrom cutBetween between
    simp only
    rw [g2, List.drop_left, writesAt_take, writesAt_apply, g3]
    unfold placed
    by_cases h3 : v.next ≤ ph
    · by_cases h4 : ph < v.next + (ps.take j).length
      · rw [if_pos ⟨h3, h4⟩, if_pos h4, if_pos ⟨h3, by omega⟩, List.getElem?_take_of_lt]
        rw [List.length_take] at h4
        omega
      · rw [if_neg (by omega), if_neg h4]
        exact hno ph h3
    · rw [if_neg (by omega), if_pos (by omega), if_neg (by omega)]

theorem cutFrom_same (a : Dev) {b : Dev} (h : b = a) (j : Nat) : (cutFrom c a b j).file = a.file ∧ (cutFrom c a b j).log = a.log := by
  unfold cutFrom cutBetween between
  rw [h, List.drop_length, List.take_nil]
  exact ⟨rfl, by simp⟩

/-- The device between the erase of a block and the write of the page that reuses it. -/
def Torn (c : Cfg) (d : Data) (D : Dev) : Prop :=
  d.avail = 0 ∧ D.file = Spec.applyEv c.eraseFx d.dev.file (.erase (d.next % c.N) (d.next % c.N + c.B)) ∧
    D.log = d.dev.log ++ [.erase (d.next % c.N) (d.next % c.N + c.B)]

theorem cutFrom_out (j : Nat) :
    ((cutFrom c d.dev (outDev c d) j).file = d.dev.file ∧ (cutFrom c d.dev (outDev c d) j).log = d.dev.log) ∨
    Torn c d (cutFrom c d.dev (outDev c d) j) ∨
    ((cutFrom c d.dev (outDev c d) j).file = (outDev c d).file ∧ (cutFrom c d.dev (outDev c d) j).log = (outDev c d).log) := by
  by_cases ha : d.avail = 0
  · have hb : between d.dev (outDev c d) = [.erase (d.next % c.N) (d.next % c.N + c.B), .write (d.next % c.N) (outPage d)] := by
      unfold between outDev
      simp only [if_pos ha]
      rw [List.append_assoc, List.drop_left]
      rfl
    unfold Torn cutFrom cutBetween
    rw [hb]
    rcases j with _ | _ | j
    · left; simp
    · right; left
      exact ⟨ha, rfl, rfl⟩
    · right; right
      constructor
      · funext i
        simp only [List.take_succ_cons, List.take_nil, List.foldl_cons, List.foldl_nil, Spec.applyEv, outDev, ha, true_and]
      · simp [outDev, ha]
  · have hb : between d.dev (outDev c d) = [.write (d.next % c.N) (outPage d)] := by
      unfold between outDev
      simp only [if_neg ha, List.append_nil]
      rw [List.drop_left]
    unfold cutFrom cutBetween
    rw [hb]
    cases j with
    | zero => left; simp
    | succ j =>
      right; right
      constructor
      · funext i
        simp only [List.take_succ_cons, List.take_nil, List.foldl_cons, List.foldl_nil, Spec.applyEv, outDev, ha, false_and, if_false]
      · simp [outDev, ha]

/-- The devices found after a power failure during an operation other than a flush. -/
theorem snapshot (hok : c.Ok K) (hv : c.VFile) (hB : Bounds c lo K P) (I : LifeInv c lo K P R d v l lv g)
    (I' : LifeInv c lo K P R d' v' l' lv g') (A : AllowedV c lo K P d v l op) (e : stepV c d x v op = .ok (d', x', v', o)) (hop : op ≠ .flush)
    (hdata : (d'.dev = d.dev ∧ l'.log.pages = l.log.pages) ∨
      (completesV c d op ∧ d'.dev = outDev c d ∧ l'.log.pages = l.log.pages ++ [l.log.buf])) (hf : PowerFail c d x v op D V) :
    ∃ w, v.next ≤ w ∧ w ≤ v'.next ∧ Upto V.file w v'.dev.file ∧
      ((D.file = d.dev.file ∧ D.log = d.dev.log) ∨
       (Torn c d D ∧ l'.log.pages = l.log.pages ++ [l.log.buf]) ∨
       (D.file = d'.dev.file ∧ D.log = d'.dev.log ∧ l'.log.pages = l.log.pages ++ [l.log.buf] ∧ d'.dev = outDev c d ∧
        ∀ n, outMin c d ≤ n → n < d'.next → ∀ p, d'.dev.file (n % c.N) = some p → DataBelow c g.es (w * c.vcap) p)) := by
  have hsum := I.tab.inv.sum0 (I.tab.inv.wrap.resolve_right id)
  have hsum' := I'.tab.inv.sum0 (I'.tab.inv.wrap.resolve_right id)
  have honly : ∀ ph p, v.dev.file ph = some p → ph < v.next := fun ph p h => (I.tab.inv.sim.only ph p h).2
  obtain ⟨a1, a2, a3⟩ := (Grow.step hok hv e).upto (by omega) hsum honly
  cases op with
  | flush => exact absurd rfl hop
  | get k =>
    cases hf
    exact ⟨v.next, le_refl _, a1, a2, Or.inl ⟨rfl, rfl⟩⟩
  | getVar k =>
    cases hf with
    | getVar k j h =>
      rw [e] at h
      simp only [Res.ok.injEq, Prod.mk.injEq] at h
      obtain ⟨rfl, rfl, rfl, rfl⟩ := h
      obtain ⟨w, w1, w2, w3⟩ := a3 j
      exact ⟨w, w1, w2, w3, Or.inl ⟨rfl, rfl⟩⟩
  | put k a b =>
    obtain ⟨gr, -⟩ := put_parts hv hok.plain e
    obtain ⟨c1, c2, c3, c4⟩ := A.client.put k a b (by simp)
    have hcap := hv.cap4
    have hopn := I.tab.opn
    unfold Open at hopn
    obtain ⟨g1, T1, t1, -, -, t3, -, t5⟩ := I.tab.pre hok hv hB.key (fun h => h.elim) (Or.inr (by
      have hroom := A.room
      have hpad : padOf c d ≤ c.vcap := by unfold padOf; split_ifs <;> omega
      have e1 : (v.next + 2) * c.vcap = (v.next + 1) * c.vcap + c.vcap := by ring
      exact Nat.div_le_of_le_mul (by rw [Nat.mul_comm]; omega))) b.isSome
    have hsum1 := T1.inv.sum0 (T1.inv.wrap.resolve_right id)
    simp only at hsum1
    obtain ⟨p1, p2, p3⟩ := (Grow.pre hv v d).upto (by omega) hsum honly
    obtain ⟨q1, q2, q3⟩ := gr.upto (by omega) hsum1 (fun ph p h => (T1.inv.sim.only ph p h).2)
    -- a data page written by this operation
    have hpage : ∀ w, (preVar c d v).next ≤ w → (d'.dev = d.dev ∧ l'.log.pages = l.log.pages) ∨
        (l'.log.pages = l.log.pages ++ [l.log.buf] ∧ d'.dev = outDev c d ∧
        ∀ n, outMin c d ≤ n → n < d'.next → ∀ p, d'.dev.file (n % c.N) = some p → DataBelow c g.es (w * c.vcap) p) := by
      intro w hw
      rcases hdata with h | ⟨h1, h2, h3⟩
      · exact Or.inl h
      · right
        refine ⟨h3, h2, ?_⟩
        have hr := I.tab.tab.room
        have hmin := I.tab.tab.sim.minle
        have hx : d'.next = d.next + 1 := by
          rw [I'.tab.tab.sim.next, h3, List.length_append, List.length_singleton, I.tab.tab.sim.next]
        have hQ := locs_sealed hok hmin hr (Q := fun p => DataBelow c g.es (w * c.vcap) p)
          (fun p q hs hq => hs.below hq)
          (fun n n1 n2 p hp => by
            have := (T1.locs n n1 n2 p hp).2
            rw [t1] at this
            intro i hi ee he hk
            exact le_trans (this i hi ee he hk) (Nat.mul_le_mul_right _ hw))
          (by
            have := t5 h1
            rw [t1] at this
            intro i hi ee he hk
            exact le_trans (this i hi ee he hk) (Nat.mul_le_mul_right _ hw))
        intro n hm hn p hp
        rw [h2] at hp
        exact hQ n hm (by show n < d.next + 1; omega) p hp
    cases hf with
    | putBefore k a b j =>
      obtain ⟨w, w1, w2, w3⟩ := p3 j
      exact ⟨w, w1, by omega, w3.trans q2 w2, Or.inl ⟨rfl, rfl⟩⟩
    | putData k a b j h =>
      rw [e] at h
      simp only [Res.ok.injEq, Prod.mk.injEq] at h
      obtain ⟨rfl, rfl, rfl, rfl⟩ := h
      refine ⟨(preVar c d v).next, p1, q1, q2, ?_⟩
      rcases hpage _ (le_refl _) with ⟨h1, -⟩ | h1
      · exact Or.inl (cutFrom_same _ h1 j)
      · have hx := h1.2.1
        rw [hx]
        rcases cutFrom_out (c := c) (d := d) j with h2 | h2 | h2
        · exact Or.inl h2
        · exact Or.inr (Or.inl ⟨h2, h1.1⟩)
        · exact Or.inr (Or.inr ⟨h2.1, h2.2, h1.1, rfl, by have := h1.2.2; rwa [hx] at this⟩)
    | putAfter k a b j h =>
      rw [e] at h
      simp only [Res.ok.injEq, Prod.mk.injEq] at h
      obtain ⟨rfl, rfl, rfl, rfl⟩ := h
      obtain ⟨w, w1, w2, w3⟩ := q3 j
      refine ⟨w, by omega, w2, w3, ?_⟩
      rcases hpage w w1 with ⟨h1, -⟩ | h1
      · exact Or.inl (by rw [h1]; exact ⟨rfl, rfl⟩)
      · exact Or.inr (Or.inr ⟨rfl, rfl, h1⟩)

theorem min_le_recovered (hok : c.Ok K) (I : LifeInv c lo K P R d v l lv g) : d.min ≤ Spec.recovered c.N c.B d.next := by
  have h1 := I.tab.tab.dropped_max hok.B0 recovered_dvd
  have h2 := I.old
  rw [← I.tab.tab.sim.next] at h1 h2
  rw [h1]
  exact max_le (recovered_mono hok.B0 hok.dvd h2) (dropped_le_recovered _ _ _)

theorem outMin_le_recovered (hok : c.Ok K) (I : LifeInv c lo K P R d v l lv g) : outMin c d ≤ Spec.recovered c.N c.B (d.next + 1) := by
  unfold outMin
  have hs := I.tab.tab.room.sum
  have hB := hok.B0
  have htwo := hok.two
  split_ifs with ha
  · have hx : d.next = d.min + c.N := by omega
    have hb : d.next % c.B = 0 := Nat.mod_eq_zero_of_dvd (by rw [hx]; exact Nat.dvd_add I.tab.tab.room.dvd hok.dvd)
    by_cases hz : (d.next + 1) % c.N = 0
    · rw [recovered_end hB hok.dvd (by omega) hz]
      have h1 : (d.next + 1) % c.B = 0 := Nat.mod_eq_zero_of_dvd (dvd_trans hok.dvd (Nat.dvd_of_mod_eq_zero hz))
      rw [Nat.add_mod, hb, Nat.zero_add, Nat.mod_mod] at h1
      have := Nat.le_of_dvd (by omega) (Nat.dvd_of_mod_eq_zero h1)
      omega
    · rw [recovered_mid hB hok.dvd (by omega) hz, Nat.add_mod, hb, Nat.zero_add, Nat.mod_mod]
      have := Nat.mod_le 1 c.B
      omega
  · exact le_trans (min_le_recovered hok I) (recovered_mono hB hok.dvd (by omega))

/-- The data file found after a power failure. -/
structure FoundOk (c : Cfg) (l' : VLog) (D : Dev) (es : List Ent) (w : Nat) (d' : Data) : Prop where
  jr : Journal c { d' with dev := D } (cutVLog l' D).log
  len : (Spec.writes D.log).length = (cutVLog l' D).log.pages.length
  old : ∀ n, Spec.recovered c.N c.B (Spec.writes D.log).length ≤ n → n < (Spec.writes D.log).length → ∀ p, D.file (n % c.N) = some p →
    LocOk c es p ∧ DataBelow c es (w * c.vcap) p
  safe : SafeCut c D D.log.length
  spl : Spec.recovered c.N c.B (Spec.writes D.log).length = 0 ∨ c.maxErr ≤ 1
  noErase : (∀ q, c.eraseFx (some q) = some q) ∨ ((Spec.writes D.log).length ≤ c.N → ∀ ev ∈ D.log, ∀ a b, ev ≠ .erase a b)

theorem LifeInv.found (hok : c.Ok K) (I : LifeInv c lo K P R d v l lv g) (I' : LifeInv c lo K P R d' v' l' lv g') (hN : CanReopen c d' D)
    (hes : ∃ t, g'.es = g.es ++ t) (hold : ∀ r ∈ l.log.all, r ∈ l'.log.all ∧ l'.var r.1 = l.var r.1)
    (hdata : (d'.dev = d.dev ∧ l'.log.pages = l.log.pages) ∨ (completesV c d op ∧ d'.dev = outDev c d ∧ l'.log.pages = l.log.pages ++ [l.log.buf]))
    {w : Nat} (w1 : v.next ≤ w)
    (w4 : (D.file = d.dev.file ∧ D.log = d.dev.log) ∨ (Torn c d D ∧ l'.log.pages = l.log.pages ++ [l.log.buf]) ∨
       (D.file = d'.dev.file ∧ D.log = d'.dev.log ∧ l'.log.pages = l.log.pages ++ [l.log.buf] ∧ d'.dev = outDev c d ∧
        ∀ n, outMin c d ≤ n → n < d'.next → ∀ p, d'.dev.file (n % c.N) = some p → DataBelow c g.es (w * c.vcap) p)) :
    FoundOk c l' D g'.es w d' := by
  obtain ⟨t, ht⟩ := hes
  have hnext := I.tab.tab.sim.next
  have hnext' := I'.tab.tab.sim.next
  have hmn := min_le_recovered hok I
  have hamin := I.tab.tab.sim.amin
  have hB0 := hok.B0
  -- entries of old records are old
  have hown : ∀ ee ∈ g'.es, ∀ r ∈ l.log.live (Spec.recovered c.N c.B R), ee.key = r.1 → ee ∈ g.es := by
    intro ee he r hr hk
    by_contra hcon
    obtain ⟨r1, r2⟩ := hold r (mem_all_of_live hr)
    have h1 := I'.tab.vars ee he
    by_cases hex : ∀ e0 ∈ g.es, e0.key ≠ r.1
    · have := I.tab.novar r hr hex
      rw [hk, r2, this] at h1
      cases h1
    · push Not at hex
      obtain ⟨e0, m1, m2⟩ := hex
      have := I'.tab.ents.key_inj he (by rw [ht]; exact List.mem_append_left _ m1) (by rw [hk, m2])
      rw [this] at hcon
      exact hcon m1
  have hcur : ∀ n, d.min ≤ n → n < d.next → ∀ p, d.dev.file (n % c.N) = some p → LocOk c g'.es p ∧ DataBelow c g'.es (w * c.vcap) p := by
    intro n hm hn p hp
    obtain ⟨q1, q2⟩ := I.tab.locs n hm hn p hp
    refine ⟨?_, ?_⟩
    · intro i hi
      obtain ⟨r, r1, r2⟩ := slot_in_live I.tab.tab.sim hm hn hp hi
      have r1' := live_le hamin r1
      rcases q1 i hi with ⟨z1, z2⟩ | ⟨e0, z1, z2, z3⟩
      · exact Or.inl ⟨z1, fun ee he hk => z2 ee (hown ee he r r1' (by rw [hk, r2])) hk⟩
      · exact Or.inr ⟨e0, by rw [ht]; exact List.mem_append_left _ z1, z2, z3⟩
    · intro i hi ee he hk
      obtain ⟨r, r1, r2⟩ := slot_in_live I.tab.tab.sim hm hn hp hi
      exact le_trans (q2 i hi ee (hown ee he r (live_le hamin r1) (by rw [hk, r2])) hk) (Nat.mul_le_mul_right _ w1)
  have hle : d.next ≤ d'.next := by
    rcases hdata with ⟨-, h⟩ | ⟨-, -, h⟩ <;> rw [hnext, hnext', h]
    rw [List.length_append]; omega
  have hcutp : (Spec.writes D.log).length = l.log.pages.length → (cutVLog l' D).log.pages = l.log.pages := by
    intro hw
    unfold cutVLog
    simp only
    rw [hw]
    rcases hdata with ⟨-, h⟩ | ⟨-, -, h⟩ <;> rw [h]
    · rw [List.take_length]
    · rw [List.take_left]
  have hsafe : ∀ {dd : Data}, dd.next ≤ d'.next → ((∀ q, c.eraseFx (some q) = some q) ∨ (dd.next ≤ c.N → ∀ ev ∈ dd.dev.log, ∀ a b, ev ≠ .erase a b)) →
      D.log = dd.dev.log → SafeCut c D D.log.length := by
    intro dd h1 h2 h3
    rcases hN with h | h
    · rcases h2 with h2 | h2
      · exact Or.inr h2
      · refine Or.inl (fun hi hl => ?_)
        rw [List.take_length, h3] at hl
        exact h2 (by omega) _ (List.mem_of_getLast? hl) 0 hi rfl
    · exact h.2
  have hspl : ∀ n, n ≤ d'.next → Spec.recovered c.N c.B n = 0 ∨ c.maxErr ≤ 1 := by
    intro n hn
    rcases hN with h | h
    · exact Or.inl (recovered_small (by omega))
    · exact Or.inr h.1
  rcases w4 with ⟨f1, f2⟩ | ⟨⟨ha, f1, f2⟩, f3⟩ | ⟨f1, f2, f3, f4, f5⟩
  · have hw : (Spec.writes D.log).length = l.log.pages.length := by rw [f2, ← wrote_length, I.jr.count]
    have hpg := hcutp hw
    refine ⟨⟨by show GoodLog c D.log; rw [f2]; exact I.jr.good, by show D.file = Spec.image c.eraseFx D.log; rw [f1, f2]; exact I.jr.file,
      by show (wrote D.log).map _ = _; rw [f2, hpg]; exact I.jr.pages⟩, by rw [hw, hpg], ?_, hsafe hle I.noErase f2, hspl _ (by omega),
      I.noErase.imp id fun h hn => by rw [f2]; exact h (by omega)⟩
    intro n hm hn p hp
    rw [hw, ← hnext] at hm hn
    rw [f1] at hp
    exact hcur n (by omega) hn p hp
  · have hwd : (Spec.writes d.dev.log).length = d.next := by rw [← wrote_length, I.jr.count, hnext]
    have hwr : Spec.writes D.log = Spec.writes d.dev.log := by
      rw [f2, writes_append]
      simp [Spec.writes]
    have hw : (Spec.writes D.log).length = l.log.pages.length := by rw [hwr, hwd, hnext]
    have hpg := hcutp hw
    have hs := I.tab.tab.room.sum
    have hx : d.next = d.min + c.N := by omega
    have hb : d.next % c.B = 0 := Nat.mod_eq_zero_of_dvd (by rw [hx]; exact Nat.dvd_add I.tab.tab.room.dvd hok.dvd)
    have hx' : d'.next = d.next + 1 := by rw [hnext', f3, List.length_append, List.length_singleton, hnext]
    have hsf : SafeCut c D D.log.length := by
      rcases hN with h | h
      · omega
      · exact h.2
    have hg := GoodLog.erase I.jr.good (by omega) (by rw [hwd]; exact hb)
    rw [hwd] at hg
    refine ⟨⟨by show GoodLog c D.log; rw [f2]; exact hg, ?_, ?_⟩, by rw [hw, hpg], ?_, hsf, hspl _ (by omega), ?_⟩
    · show D.file = Spec.image c.eraseFx D.log
      rw [f2, image_snoc, f1]
      congr 1
      exact I.jr.file
    · show (wrote D.log).map _ = _
      unfold wrote
      rw [hwr, hpg]
      exact I.jr.pages
    · intro n hm hn p hp
      rw [hw, ← hnext] at hm hn
      have hmin : d.min ≤ n := by omega
      refine hcur n hmin hn p ?_
      rw [f1] at hp
      simp only [Spec.applyEv] at hp
      by_cases hi : d.next % c.N ≤ n % c.N ∧ n % c.N < d.next % c.N + c.B
      · rw [if_pos hi] at hp
        rcases hsf with h | h
        · exfalso
          have hz : d.next % c.N ≠ 0 := by
            intro hz
            refine h (d.next % c.N + c.B) ?_
            rw [List.take_length, f2, List.getLast?_concat, hz]
          have h1 : c.N < d.next := by
            by_contra hcon
            have : d.next = c.N := by omega
            rw [this, Nat.mod_self] at hz
            exact hz rfl
          rw [recovered_mid hB0 hok.dvd h1 hz, hb] at hm
          have e : d.next % c.N = d.min % c.N := by rw [hx, Nat.add_mod_right]
          rw [e] at hi
          have := block_window hok.N0 (by omega) (by omega) hi.1 hi.2
          omega
        · obtain ⟨q, q1, -⟩ := I.tab.tab.sim.stored n hmin (by omega)
          rw [q1, h] at hp
          rw [q1]
          exact hp
      · rwa [if_neg hi] at hp
    · rcases hsf with h | h
      · right
        intro hn
        exfalso
        rw [hw] at hn
        refine h (d.next % c.N + c.B) ?_
        have hz : d.next = c.N := by omega
        rw [List.take_length, f2, List.getLast?_concat, hz, Nat.mod_self]
      · exact Or.inl h
  · have hw : (Spec.writes D.log).length = l'.log.pages.length := by rw [f2, ← wrote_length, I'.jr.count]
    have hpg : (cutVLog l' D).log.pages = l'.log.pages := by
      unfold cutVLog
      simp only
      rw [hw, List.take_length]
    refine ⟨⟨by show GoodLog c D.log; rw [f2]; exact I'.jr.good, by show D.file = Spec.image c.eraseFx D.log; rw [f1, f2]; exact I'.jr.file,
      by show (wrote D.log).map _ = _; rw [f2, hpg]; exact I'.jr.pages⟩, by rw [hw, hpg], ?_, hsafe (le_refl _) I'.noErase f2, hspl _ (by omega),
      I'.noErase.imp id fun h hn => by rw [f2]; exact h (by omega)⟩
    intro n hm hn p hp
    rw [hw, ← hnext'] at hm hn
    rw [f1] at hp
    have hm' := min_le_recovered hok I'
    have hx' : d'.next = d.next + 1 := by rw [hnext', f3, List.length_append, List.length_singleton, hnext]
    have hm2 := outMin_le_recovered hok I
    rw [← hx'] at hm2
    have hm3 : d.min ≤ outMin c d := by unfold outMin; split_ifs <;> omega
    refine ⟨(I'.tab.locs n (by omega) hn p hp).1, ?_⟩
    intro i hi ee he hk
    have hn' := hn
    rw [hnext'] at hn'
    obtain ⟨q, q1, q2, -⟩ := I'.tab.tab.sim.stored n (by omega) hn'
    rw [hp] at q1
    cases q1
    have hin : (slotKey c p i, slotData c p i) ∈ l.log.live (Spec.recovered c.N c.B R) := by
      have h1 : (slotKey c p i, slotData c p i) ∈ l'.log.pages[n] := by rw [← q2]; exact mem_recs.mpr ⟨i, hi, rfl⟩
      simp only [f3] at h1
      by_cases hnl : n < l.log.pages.length
      · rw [List.getElem_append_left hnl] at h1
        exact mem_live.mpr (Or.inl ⟨n, hnl, by omega, h1⟩)
      · rw [List.getElem_append_right (by omega)] at h1
        simp only [List.getElem_singleton] at h1
        exact mem_live.mpr (Or.inr h1)
    exact f5 n (by omega) hn p hp i hi ee (hown ee he _ hin hk) hk

/-- Reopening after a power failure. -/
theorem LifeInv.reopen (hok : c.Ok K) (hv : c.VFile) (hB : Bounds c lo K P) (h127 : c.maxRec ≤ 127) (hN32 : c.N < 2 ^ 32) (hE : Eraser c P)
    (I : LifeInv c lo K P R d v l lv g) (I' : LifeInv c lo K P R d' v' l' lv g') (A : AllowedV c lo K P d v l op)
    (e : stepV c d x v op = .ok (d', x', v', o)) (hop : op ≠ .flush) (hN : CanReopen c d' D) (hes : ∃ t, g'.es = g.es ++ t)
    (hold : ∀ r ∈ l.log.all, r ∈ l'.log.all ∧ l'.var r.1 = l.var r.1)
    (hdata : (d'.dev = d.dev ∧ l'.log.pages = l.log.pages) ∨
      (completesV c d op ∧ d'.dev = outDev c d ∧ l'.log.pages = l.log.pages ++ [l.log.buf])) (hf : PowerFail c d x v op D V)
    (hV : ¬ LonePage c V) (rb vrb : Page) (sm : Nat → Nat × Nat) (hvf : Bool) :
    ∃ d'' v'' lv'' g'', reopenV c D V rb sm vrb hvf = (d'', v'', 0) ∧
      LifeInv c lo K P (Spec.writes D.log).length d'' v'' (cutVLog l' D) lv'' g'' := by
  obtain ⟨w, w1, w2, w3, w4⟩ := snapshot hok hv hB I I' A e hop hdata hf
  have F := I.found hok I' hN hes hold hdata w1 w4
  have hlen := F.len
  have hnext' := I'.tab.tab.sim.next
  have hsubs : (cutVLog l' D).log.all.Sublist l'.log.all := Log_cut_all _
  have hlenN : (cutVLog l' D).log.pages.length ≤ l'.log.pages.length := by
    unfold cutVLog; simp only; rw [List.length_take]; omega
  have hcd : cutDev c D D.log.length = D := by
    unfold cutDev
    rw [List.take_length]
    have := F.jr.file_eq
    simp only at this
    rw [← this]
  have hcl : cutLog (cutVLog l' D).log D D.log.length = (cutVLog l' D).log := by
    unfold cutLog
    rw [List.take_length, hlen, List.take_length]
    unfold cutVLog
    rfl
  have hsort := I'.tab.tab.sim.sorted.sublist hsubs
  have hfull : ∀ pg ∈ (cutVLog l' D).log.pages, pg ≠ [] := fun pg h => I'.tab.tab.sim.full pg (List.mem_of_mem_take h)
  have hcap : Capped c.maxRec (cutVLog l' D).log := ⟨fun pg h => I'.tab.tab.cap.1 pg (List.mem_of_mem_take h), by simp [cutVLog]⟩
  -- opening the data file
  obtain ⟨d'', n, e1, g2, -, e2, e3, e4, e5, -, e6, e7⟩ := reopen_ok hok hB (le_of_lt hB.pages) h127 hN32 hE F.jr hsort
      (fun r hr => I'.tab.tab.sim.bound r (hsubs.subset hr)) hfull hcap (by have := I'.pages; omega) D.log.length F.safe rb sm
  simp only [List.take_length] at g2
  have e7 := e7 (by rw [g2]; exact F.spl)
  unfold EDB.reopen at e1
  simp only at e1 e2 e3 e7
  rw [hcd] at e1 e3
  rw [hcl] at e2 e7
  rw [g2] at e4 e5 e7
  obtain ⟨mn, hmn⟩ : ∃ mn, mn = Spec.recovered c.N c.B (Spec.writes D.log).length := ⟨_, rfl⟩
  rw [← hmn] at e5 e7
  have hlocs : ∀ dd : Data, dd.dev = D → dd.next = (Spec.writes D.log).length → ∀ n, mn ≤ n → n < dd.next → ∀ p, dd.dev.file (n % c.N) = some p →
      LocOk c g'.es p ∧ DataBelow c g'.es (w * c.vcap) p := by
    intro dd h1 h2 n hm hn p hp
    rw [h1] at hp
    exact F.old n (by omega) (by omega) p hp
  have hmnR : Spec.recovered c.N c.B R ≤ mn ∨ (cutVLog l' D).log.pages.length = 0 := by
    rcases Nat.eq_zero_or_pos (cutVLog l' D).log.pages.length with h | h
    · exact Or.inr h
    · left
      rw [hmn]
      rcases w4 with ⟨-, f2⟩ | ⟨⟨ha, -, f2⟩, f3⟩ | ⟨-, f2, -⟩
      · refine recovered_mono hok.B0 hok.dvd ?_
        rw [f2, ← wrote_length, I.jr.count]; exact I.old
      · refine recovered_mono hok.B0 hok.dvd ?_
        rw [f2, writes_append, List.length_append, ← wrote_length, I.jr.count]
        have := I.old; omega
      · refine recovered_mono hok.B0 hok.dvd ?_
        rw [f2, ← wrote_length, I'.jr.count]; exact I'.old
  have hsubl : ∀ r ∈ (cutVLog l' D).log.live mn, r ∈ l'.log.live (Spec.recovered c.N c.B R) := by
    intro r hr
    rcases mem_live.mp hr with ⟨j, j1, j2, j3⟩ | h
    · unfold cutVLog at j1 j3
      simp only [List.length_take] at j1
      simp only [List.getElem_take] at j3
      refine mem_live.mpr (Or.inl ⟨j, by omega, ?_, j3⟩)
      rcases hmnR with h | h
      · omega
      · rw [cutVLog] at h
        simp only [List.length_take] at h
        omega
    · simp [cutVLog] at h
  have hids : ∀ ph p, V.file ph = some p → pageId p = ph := by
    intro ph p hp
    rw [w3 ph] at hp
    split_ifs at hp
    exact I'.ids ph p hp
  have hfit : ∀ r ∈ (cutVLog l' D).log.all, r.1 + 1 < K := fun r hr => I'.fit r (hsubs.subset hr)
  have hroom := I'.room
  have hpages := I'.pages
  have hold' : (Spec.writes D.log).length ≤ (cutVLog l' D).log.pages.length := by omega
  rcases Nat.eq_zero_or_pos (cutVLog l' D).log.pages.length with h0 | h0
  · -- no data page
    have hall : (cutVLog l' D).log.all = [] := by
      unfold Log.all
      rw [List.length_eq_zero_iff.mp h0]
      rfl
    have hlive : (cutVLog l' D).log.live mn = [] := by
      rw [List.eq_nil_iff_forall_not_mem]
      intro r hr
      have := mem_all_of_live hr
      rw [hall] at this
      cases this
    refine ⟨d'', Var.fresh c vrb hvf, lo, ⟨0, g'.s.take (0 * c.vcap), g'.ks.take 0, keepEnts ((cutVLog l' D).log.live mn) g'.es⟩, ?_,
      hmn ▸ vtable_opened (l' := l') hv hB.key I'.tab (by omega) (by omega) e7 rfl e5 rfl hsubl rfl rfl (by simp [Var.fresh]) rfl
        (by intro ph h; simp [Var.fresh] at h) (by intro ph; simp [Var.fresh]) (Or.inl ⟨Or.inr hlive, rfl⟩) (by intro n _ hn; omega),
      F.spl, hold', e2, hfit, by omega, hv.nv, ?_, ?_, fun k h _ => h⟩
    · unfold reopenV
      simp only [e1]
      rw [if_neg (by simp), if_neg (by rw [e4, hlen, h0, hok.plain]; simp)]
    · intro ph p h; simp [Var.fresh] at h
    · rw [e3]; exact F.noErase.imp id fun h hn => h (by omega)
  · -- the smallest key
    have hBN : c.B < c.N := by have := hok.two; have := hok.B0; omega
    have hmlt : mn < (cutVLog l' D).log.pages.length := by
      rw [hmn, hlen]
      exact recovered_lt hok.B0 hok.dvd hBN h0
    obtain ⟨pg0, hpg0⟩ : ∃ pg0, (cutVLog l' D).log.pages[mn]'hmlt = pg0 := ⟨_, rfl⟩
    have hne0 : pg0 ≠ [] := by rw [← hpg0]; exact hfull _ (List.getElem_mem _)
    obtain ⟨r0, tl, hpg⟩ := List.exists_cons_of_ne_nil hne0
    have hall : ∃ rest, (cutVLog l' D).log.live mn = r0 :: rest := by
      unfold Log.live
      rw [List.drop_eq_getElem_cons hmlt, hpg0, hpg, List.flatten_cons, List.append_assoc, List.cons_append]
      exact ⟨_, rfl⟩
    obtain ⟨rest, hall⟩ := hall
    have hlsort : ((cutVLog l' D).log.live mn).Pairwise (fun r s => r.1 < s.1) := by
      refine hsort.sublist ?_
      unfold Log.live Log.all
      refine List.Sublist.append ?_ (List.Sublist.refl _)
      have h := congrArg List.flatten (List.take_append_drop mn (cutVLog l' D).log.pages)
      rw [List.flatten_append] at h
      rw [← h]
      exact List.sublist_append_right _ _
    have hr0l : r0 ∈ (cutVLog l' D).log.live mn := by rw [hall]; simp
    have hr0 : r0 ∈ (cutVLog l' D).log.all := mem_all_of_live hr0l
    have hge : ∀ r ∈ (cutVLog l' D).log.live mn, r0.1 ≤ r.1 := by
      intro r hr
      rw [hall] at hlsort hr
      rcases List.mem_cons.mp hr with h | h
      · rw [h]
      · exact le_of_lt ((List.pairwise_cons.mp hlsort).1 r h)
    have hlift : ∀ k, lo ≤ k → (∀ r ∈ (cutVLog l' D).log.all, r.1 < k) → r0.1 ≤ k := fun k _ h => le_of_lt (h r0 hr0)
    obtain ⟨p0, p1, p2, -⟩ := e7.sim.stored mn (by omega) hmlt
    rw [hpg0, hpg] at p2
    have hmk : pageMinKey c p0 = r0.1 := pageMinKey_eq p2
    have hq : d''.dev.file (d''.min % c.N) = some p0 := by rw [e5]; exact p1
    have hS := readPage_same d'' (d''.min % c.N)
    have hF : Fresh (readPage d'' (d''.min % c.N)).1 := readPage_fresh e6
    have e8 : TableM c lo K mn (readPage d'' (d''.min % c.N)).1 (cutVLog l' D).log := by
      refine e7.congr hS (e7.sim.congr_cache hS ?_ ?_)
      · intro ph hph
        rw [(readPage_some e6 hq).2.2.1] at hph
        cases hph
        rw [e5]
        have := Nat.mod_le mn c.N
        exact ⟨Nat.mod_lt _ hok.N0, by rw [e4]; omega⟩
      · intro ph hph j _ _ _
        have := hF ph hph
        rw [hS.dev] at this
        exact this
    have hsync : VSync (Var.opening c V vrb hvf) := by intro ph h; simp [Var.opening, Var.fresh] at h
    have hreopen : reopenV c D V rb sm vrb hvf = recoverVar c d'' (Var.opening c V vrb hvf) := by
      unfold reopenV
      simp only [e1]
      rw [if_neg (by simp), if_pos (Or.inl (by omega))]
    have hrest : ∀ ph, w ≤ ph → V.file ph = none := fun ph h => by rw [w3 ph, if_neg (by omega)]
    rcases Nat.eq_zero_or_pos w with hw0 | hw0
    · refine ⟨d'', Var.opening c V vrb hvf, r0.1, _, ?_,
        hmn ▸ vtable_opened (w := w) (l' := l') hv hB.key I'.tab (by omega) w2 e7 rfl e5 rfl hsubl
          (by rw [hw0]; rfl) rfl (by rw [hw0]; simp [Var.opening, Var.fresh]) (by rw [hw0]; simp [Var.opening, Var.fresh]) hsync w3
          (Or.inl ⟨Or.inl hw0, rfl⟩) (hlocs d'' e3 e4), F.spl, hold', e2, hfit, by omega, hv.nv, hids, ?_, hlift⟩
      · rw [hreopen]
        exact recoverVar_empty hsync ⟨fun j h => absurd h (Nat.not_lt_zero _), fun j _ => hrest j (by omega)⟩
      · rw [e3]; exact F.noErase.imp id fun h hn => h (by omega)
    · obtain ⟨vn, f1, f2, f3⟩ := recoverVar_ok hv hok.plain hw0 (by omega) hsync (w := w)
        ⟨fun j h => by
          obtain ⟨p, p1, -⟩ := I'.tab.inv.sim.stored j (by rw [I'.tab.inv.base0 (I'.tab.inv.wrap.resolve_right id)]; omega) (by omega)
          rw [Nat.mod_eq_of_lt (by omega)] at p1
          exact ⟨p, by show V.file j = _; rw [w3 j, if_pos h]; exact p1, I'.ids j p p1⟩, fun j h => hrest j h⟩
        (fun h p hp hk => hV ⟨hrest 1 (by omega), p, hp, hk⟩) e6 hq
      have hvd : vn.dev = V := by rw [f2]; rfl
      have hvw : vn.wbuf = fun _ => 0 := by rw [f2]; rfl
      refine ⟨_, _, r0.1, _, hreopen.trans f1,
        hmn ▸ vtable_opened (w := w) (l' := l')
          (vn := { vn with next := w, minRec := pageMinKey c p0, avail := c.numVar - w, loc := w * c.pageSize + c.vhdr }) hv hB.key I'.tab (by omega) w2 e8 rfl (by rw [hS.min]; exact e5) rfl
          hsubl rfl hvw rfl rfl f3 (by show Upto vn.dev.file w _; rw [hvd]; exact w3)
          (Or.inr ⟨hmk, hfit r0 hr0, hge⟩) (hlocs _ (hS.dev.trans e3) (hS.next.trans e4)), F.spl, hold', e2.congr hS.dev, hfit, ?_, ?_, ?_, ?_, hlift⟩
      · rw [hS.next, e4]; omega
      · show w < c.numVar; omega
      · show ∀ ph p, vn.dev.file ph = some p → pageId p = ph
        rw [hvd]; exact hids
      · rw [hS.dev, hS.next, e3]; exact F.noErase.imp id fun h hn => h (by omega)

/-- Everything that ever happens to a table with variable data. -/
theorem LifeV.ok (hok : c.Ok K) (hv : c.VFile) (hB : Bounds c lo K P) (h127 : c.maxRec ≤ 127) (hN32 : c.N < 2 ^ 32) (hE : Eraser c P) (hP0 : 0 < P)
    (h : LifeV c lo K P R d x v l) : ∃ lv g, LifeInv c lo K P R d v l lv g := by
  induction h with
  | new rb vrb sm hvf x =>
    have hr0 : Spec.recovered c.N c.B 0 = 0 := recovered_small (by omega)
    refine ⟨lo, ⟨0, [], [], []⟩, ?_, Or.inl hr0, Nat.zero_le _, Journal.fresh rb sm, ?_, hP0, hv.nv, ?_, ?_, fun k h _ => h⟩
    · rw [hr0]; exact fresh_vtable hok hv (fun h => h.elim) rb vrb sm hvf
    · intro r h; simp [VLog.empty, Log.all, Log.empty] at h
    · intro ph p h; simp [Var.fresh] at h
    · right; intro _ ev h; simp [Data.fresh] at h
  | op h A hx e ih =>
    obtain ⟨lv, g, I⟩ := ih
    obtain ⟨g', I', -⟩ := I.step hok hv hB (by omega) A hx e rfl
    exact ⟨lv, g', I'⟩
  | cut h A e hop hN hf hV rb vrb sm hvf hr ih =>
    obtain ⟨lv, g, I⟩ := ih
    obtain ⟨g', I', h1, h2, h3⟩ := I.step hok hv hB (by omega) A (fun h => absurd h hop) e rfl
    obtain ⟨d1, v1, lv1, g1, e1, I1⟩ := I.reopen hok hv hB h127 hN32 hE I' A e hop hN h1 h2 h3 hf hV rb vrb sm hvf
    rw [hr] at e1
    simp only [Prod.mk.injEq] at e1
    obtain ⟨rfl, rfl, -⟩ := e1
    exact ⟨lv1, g1, I1⟩

end

end EDB
