import Verif.Proofs.VarKept

/-! Helper lemmas: working on with a table that was opened again, the variable data file having wrapped. -/

namespace EDB

open Spec (Log VLog VOp VOut Rec)

section
variable {c : Cfg} {lo lv K P m mn n w : Nat} {M : Mode} {d : Data} {v : Var} {l : VLog} {L : Log} {g : Gh} {D V : Dev} {pages : List (List Rec)}

theorem LRing.only {N B : Nat} {keep : Prop} {log : List Ev} {a : Nat} (h : LRing N B keep log n a) (hN : 0 < N)
    {fx : Option Page → Option Page} (hid : fx = id) : ∀ {ph : Nat} {p : Page}, Spec.image fx log ph = some p → ph < N ∧ ph < n := by
  subst hid
  induction h with
  | nil => intro ph p h; cases h
  | write h ha q hp ih =>
    intro ph p hph
    rw [image_snoc] at hph
    simp only [Spec.applyEv] at hph
    split_ifs at hph with h1
    · rw [h1]
      exact ⟨Nat.mod_lt _ hN, Nat.lt_succ_of_le (Nat.mod_le _ _)⟩
    · have := ih hph
      omega
  | erase h ih =>
    intro ph p hph
    rw [image_snoc] at hph
    simp only [Spec.applyEv, id] at hph
    split_ifs at hph <;> exact ih hph
  | reopen h ht ih => exact ih

theorem getD_take {α : Type} {x : α} {s : List α} {i k : Nat} (h : i < k) : (s.take k).getD i x = s.getD i x := by
  simp only [List.getD_eq_getElem?_getD]
  rw [List.getElem?_take_of_lt h]

/-- The table put together from a recovered data file and the first `w` pages of the variable data file. -/
theorem vtable_resumed (hv : c.VFile) (hid : c.eraseFx = id) {Q b : Nat} {ln : VLog} (tab : TableM c lo K mn d ln.log) (hbuf : ln.log.buf = [])
    (hmin : d.min = mn) (hents : EntsOk c g) (hbd : ∀ e ∈ g.es, e.key + 1 < K)
    (hvars : ∀ e ∈ g.es, ln.var e.key = some e.bs)
    (hnovar : ∀ r ∈ ln.log.live mn, (∀ e ∈ g.es, e.key ≠ r.1) → ln.var r.1 = none)
    (hslen : w * c.vcap ≤ g.s.length) (hklen : w ≤ g.ks.length)
    (hsep : ∀ j, j < w → g.ks.getD j 0 + 1 < K ∧ ∀ e ∈ g.es, e.a / c.vcap ≤ j ↔ e.key ≤ g.ks.getD j 0)
    (hQ : ∀ j, j < w → g.ks.getD j 0 < Q)
    (hnext : v.next = w) (hwb : v.wbuf = fun _ => 0) (hloc : Round c v.loc (w * c.pageSize + c.vhdr)) (hb : B0 ∣ b) (hB0 : B0 = c.B)
    (hav : w + v.avail = b + c.numVar) (htight : b = 0 ∨ v.avail ≤ c.B)
    (hlim : (b = 0 ∧ firstRead c.numVar c.B w = 0) ∨
      (0 < b ∧ firstRead c.numVar c.B w = b + 1 ∧ (v.avail < c.B ∨ w % c.numVar ≠ 0)))
    (hs : VSync v) (honly : ∀ ph p, v.dev.file ph = some p → ph < c.numVar ∧ ph < w)
    (hcount : (Spec.writes v.dev.log).length = w)
    (hpage : ∀ j, j < w → ∃ p, (Spec.writes v.dev.log)[j]? = some (j % c.numVar, p) ∧ (b ≤ j → v.dev.file (j % c.numVar) = some p) ∧
      (∀ o, o < c.vcap → p (c.vhdr + o) = g.s.getD (j * c.vcap + o) 0) ∧ vkey c p = g.ks.getD j 0)
    (hrec : (b = 0 ∧ (w = 0 ∨ ln.log.live mn = []) ∧ v.minRec = 2 ^ 64 - 1) ∨
      (b = 0 ∧ v.minRec % 256 ^ c.keySize ≤ Q ∧ v.minRec % 256 ^ c.keySize + 1 < K ∧ ∀ r ∈ ln.log.live mn, v.minRec % 256 ^ c.keySize ≤ r.1) ∨
      (0 < b ∧ v.minRec % 256 ^ c.keySize = g.ks.getD b 0 + 1))
    (hlocs : ∀ n, mn ≤ n → n < d.next → ∀ p, d.dev.file (n % c.N) = some p → LocOk c g.es p ∧ DataBelow c g.es (w * c.vcap) p) :
    VTableM c lo Q K mn ⟨True, firstRead c.numVar c.B w, Q⟩ d v ln
      ⟨firstRead c.numVar c.B w, g.s.take (w * c.vcap), g.ks.take w, keepEnts (ln.log.live mn) g.es⟩ := by
  subst hB0
  have hcap := hv.cap4
  have htwo := hv.two
  have hB0 := hv.B0
  have hlen : (g.s.take (w * c.vcap)).length = w * c.vcap := by
    rw [List.length_take]
    omega
  have hbelow : ∀ e ∈ keepEnts (ln.log.live mn) g.es, e.fin ≤ w * c.vcap := by
    intro e he
    obtain ⟨e1, r, r1, r2⟩ := mem_keep.mp he
    rcases mem_live.mp r1 with ⟨n, n1, n2, q2⟩ | q2
    · obtain ⟨p, p1, p2, -⟩ := tab.sim.stored n (by omega) n1
      rw [← p2] at q2
      obtain ⟨i, i1, i2⟩ := mem_recs.mp q2
      have hn : n < d.next := by rw [tab.sim.next]; exact n1
      exact (hlocs n n2 hn p p1).2 i i1 e e1 (by rw [← r2, i2])
    · rw [hbuf] at q2
      cases q2
  have hkeep : ∀ e ∈ g.es, ∀ n, mn ≤ n → n < d.next → ∀ p, d.dev.file (n % c.N) = some p → ∀ i, i < pageCount p → e.key = slotKey c p i →
      e ∈ keepEnts (ln.log.live mn) g.es := by
    intro e he n hmn hn p hp i hi hk
    obtain ⟨r, r1, r2⟩ := slot_in_live tab.sim (by omega) hn hp hi
    rw [hmin] at r1
    exact mem_keep.mpr ⟨he, r, r1, by rw [r2, hk]⟩
  have hbase : vbase c v = b := by unfold vbase; omega
  have hsG : ∀ j o, j < w → o < c.vcap → (g.s.take (w * c.vcap)).getD (j * c.vcap + o) 0 = g.s.getD (j * c.vcap + o) 0 := by
    intro j o hj ho
    have h2 := Nat.mul_le_mul_right c.vcap (show j + 1 ≤ w by omega)
    rw [Nat.add_mul, Nat.one_mul] at h2
    exact getD_take (by omega)
  refine ⟨tab, ⟨?_, ?_, fun _ => ⟨?_, ⟨le_refl _, ?_⟩, ?_, ?_, ?_, ?_⟩, ?_, Or.inr trivial, fun _ => hid, ?_⟩, ?_, ⟨?_, ?_⟩, ?_, ?_, ?_, ?_, ?_⟩
  · rw [hbase]
    refine ⟨by simp only [hlen, hnext]; omega, ?_, by simp only [hlen, hnext, Nat.sub_self]; exact hloc, ?_, hb, by omega, htight, ?_, ?_, ?_, ?_, ?_⟩
    · simp only [hlen, hnext]
      exact Nat.mul_le_mul_right _ (by omega)
    · simp only [hnext]
      rw [List.length_take]
      omega
    · intro j hbj hj
      rw [hnext] at hj
      obtain ⟨p, -, p1, p2, p3⟩ := hpage j hj
      refine ⟨p, p1 hbj, ?_, ?_⟩
      · intro o ho
        rw [p2 o ho, hsG j o hj ho]
      · rw [p3, getD_take hj]
    · intro o ho
      rw [hwb, hnext]
      simp only [List.getD_eq_getElem?_getD]
      rw [List.getElem?_eq_none (by rw [hlen]; omega)]
      rfl
    · intro ph hph
      rw [hnext]
      exact honly ph _ (hs ph hph)
    · intro ph hph j _ _ _
      exact Or.inl (hs ph hph)
    · intro ph p hp
      rw [hnext]
      exact honly ph p hp
  · rw [hbase]
    refine ⟨le_refl _, ?_⟩
    rcases hlim with ⟨h1, h2⟩ | ⟨h1, h2, h3⟩
    · exact Or.inl ⟨by simp only; omega, Or.inl h1⟩
    · refine Or.inr ⟨h1, h2, rfl, ?_⟩
      rw [hnext]; exact h3
  · intro j hj
    rw [hnext] at hj
    simp only
    rw [getD_take hj]
    obtain ⟨q1, q2⟩ := hsep j hj
    exact ⟨q1, fun e he => q2 e (mem_keep.mp he).1⟩
  · intro j hj
    rw [hnext] at hj
    left
    simp only
    rw [getD_take hj]
    exact hQ j hj
  · left
    simp only [hlen, hnext, hwb]
    exact ⟨trivial, vkey_zero c⟩
  · intro e he
    have := hbelow e he
    unfold Ent.fin at this
    rw [hnext]
    have h2 : e.a / c.vcap < w := (Nat.div_lt_iff_lt_mul (by omega)).mpr (by omega)
    omega
  · rw [hnext]; exact hcount
  · intro j hj
    rw [hnext] at hj
    obtain ⟨p, p1, -, p2, p3⟩ := hpage j hj
    exact ⟨p, p1, fun o ho => by simp only [hsG j o hj ho]; exact p2 o ho, by simp only [getD_take hj]; exact p3⟩
  · unfold MinOk
    rcases hrec with ⟨h0, h1, h2⟩ | ⟨h0, h1, h2, h3⟩ | ⟨h0, h1⟩
    · refine Or.inl ⟨?_, ?_, h2⟩
      · simp only
        omega
      rw [List.eq_nil_iff_forall_not_mem]
      intro e he
      rcases h1 with h1 | h1
      · have := hbelow e he
        rw [h1, Nat.zero_mul] at this
        unfold Ent.fin at this
        omega
      · obtain ⟨-, r, r1, -⟩ := mem_keep.mp he
        rw [h1] at r1
        cases r1
    · refine Or.inr (Or.inl ⟨by simp only; omega, h2, Or.inl h1, ?_⟩)
      intro e he
      obtain ⟨-, r, r1, r2⟩ := mem_keep.mp he
      have := h3 r r1
      omega
    · have hf : firstRead c.numVar c.B w = b + 1 := by omega
      refine Or.inr (Or.inr ⟨by simp only; omega, ?_⟩)
      simp only [hf, Nat.add_sub_cancel]
      rw [getD_take (by omega)]
      exact h1
  · intro e he
    exact hbd e (mem_keep.mp he).1
  · unfold Open
    simp only [hlen, hnext]
    rw [Nat.add_mul]
    omega
  · intro e he
    exact (hents.ok e (mem_keep.mp he).1).take (hbelow e he)
  · exact hents.sorted.filter _
  · intro e he
    obtain ⟨r, r1, r2⟩ := (mem_keep.mp he).2
    exact ⟨r, mem_all_of_live r1, r2⟩
  · intro e he
    exact hvars e (mem_keep.mp he).1
  · intro r hr hno
    exact hnovar r hr (fun e he hk => hno e (mem_keep.mpr ⟨he, r, hr, hk.symm⟩) hk)
  · intro n hmn hn p hp
    rw [hmin] at hmn
    obtain ⟨h1, h2⟩ := hlocs n hmn hn p hp
    refine ⟨?_, ?_⟩
    · intro i hi
      rcases h1 i hi with ⟨q1, q2⟩ | ⟨e, q1, q2, q3⟩
      · exact Or.inl ⟨q1, fun e he => q2 e (mem_keep.mp he).1⟩
      · exact Or.inr ⟨e, hkeep e q1 n hmn hn p hp i hi q2, q2, q3⟩
    · intro i hi e he hk
      rw [hnext]
      exact h2 i hi e (mem_keep.mp he).1 hk
  · intro i hi
    have := tab.sim.buf
    rw [hbuf] at this
    have h2 := congrArg List.length this
    rw [recs_length] at h2
    simp at h2
    omega

/-- The table opened again. -/
theorem CutAt.table (hv : c.VFile) (hid : c.eraseFx = id) (hK : K ≤ 256 ^ c.keySize) (H : CutAt c lo K P g D V pages n)
    (hfit : ∀ r ∈ (Log.mk pages []).all, r.1 + 1 < K) {Q : Nat} (hQr : ∀ r ∈ (Log.mk pages []).all, r.1 < Q) (hQ : ∀ j, j < n → g.ks.getD j 0 < Q)
    {var : Nat → Option (List Byte)} (hvars : ∀ e ∈ g.es, var e.key = some e.bs)
    (hnovar : ∀ r ∈ (Log.mk pages []).live (Spec.recovered c.N c.B pages.length), (∀ e ∈ g.es, e.key ≠ r.1) → var r.1 = none)
    (hd : d.dev = D) (hdn : d.next = pages.length) (O : OpenedV c n V g ⟨pages, []⟩ (Spec.recovered c.N c.B pages.length) v) {w0 : Nat} {g0 : Gh}
    (T : ReTab c lo K (Spec.recovered c.N c.B pages.length) w0 g0 d v ⟨pages, []⟩) :
    v.next ≤ n ∧ VarRing c (LRing c.numVar c.B True) v ∧
    VTableM c lo Q K (Spec.recovered c.N c.B pages.length) ⟨True, firstRead c.numVar c.B v.next, Q⟩ d v ⟨⟨pages, []⟩, var⟩
      ⟨firstRead c.numVar c.B v.next, g.s.take (v.next * c.vcap), g.ks.take v.next,
        keepEnts ((Log.mk pages []).live (Spec.recovered c.N c.B pages.length)) g.es⟩ := by
  have hB0 := hv.B0
  have htwo := hv.two
  have hnv := hv.nv
  rcases O with ⟨h0, vrb, hvf, rfl⟩ | ⟨o1, o2, o3, o4, o5, o6⟩
  · simp only at h0
    subst h0
    have hfr : firstRead c.numVar c.B 0 = 0 := by simp [firstRead, Spec.firstKept]
    refine ⟨Nat.zero_le _, VarRing.start .nil vrb hvf, ?_⟩
    refine vtable_resumed (w := 0) (b := 0) (ln := ⟨⟨[], []⟩, var⟩) hv hid T.tab rfl T.min H.ents H.keys hvars hnovar
      (by simp) (Nat.zero_le _) (fun j h => absurd h (Nat.not_lt_zero _)) (fun j h => absurd h (Nat.not_lt_zero _))
      rfl rfl (by simp [Var.fresh]; exact Round.refl _ _) (dvd_zero _) rfl (by simp [Var.fresh]) (Or.inl rfl) (Or.inl ⟨rfl, hfr⟩)
      T.sync (fun ph p h => by simp [Var.fresh] at h) rfl (fun j h => absurd h (Nat.not_lt_zero _))
      (Or.inl ⟨rfl, Or.inl rfl, rfl⟩) ?_
    intro n h1 h2
    rw [hdn] at h2
    exact absurd h2 (Nat.not_lt_zero _)
  · obtain ⟨a, LR⟩ := H.log
    have hfs : c.numVar ≤ n + foundSpace c.numVar c.B n := by
      unfold foundSpace
      split_ifs with h1 h2
      · omega
      · omega
      · omega
    have hfk := firstKept_eq hB0 hv.dvd hfs
    have hR : VarRing c (LRing c.numVar c.B True) v := by
      refine ⟨by rw [o1]; exact H.file, ?_⟩
      rw [o1, o2, o5]
      exact LR.reopen (fun _ _ => trivial)
    refine ⟨by omega, hR, ?_⟩
    rw [o2]
    refine vtable_resumed (w := n) (b := Spec.firstKept c.numVar c.B n) (ln := ⟨⟨pages, []⟩, var⟩) hv hid T.tab rfl T.min H.ents H.keys hvars hnovar
      H.slen H.klen H.sep hQ o2 o3 ?_ ?_ rfl ?_ ?_ ?_ T.sync ?_ ?_ ?_ ?_ ?_
    · refine ⟨n / c.numVar, ?_⟩
      rw [o4]
      have e1 := Nat.div_add_mod n c.numVar
      have e2 : n / c.numVar * (c.numVar * c.pageSize) = c.numVar * (n / c.numVar) * c.pageSize := by ring
      have e3 : n * c.pageSize = c.numVar * (n / c.numVar) * c.pageSize + n % c.numVar * c.pageSize := by
        rw [← Nat.add_mul, e1]
      omega
    · unfold Spec.firstKept
      split_ifs with h1 h2
      · exact dvd_zero _
      · exact Nat.dvd_sub (dvd_trans hv.dvd (Nat.dvd_of_mod_eq_zero h2)) hv.dvd
      · refine Nat.dvd_sub ?_ hv.dvd
        have := Nat.mod_lt n hB0
        refine ⟨n / c.B + 1, ?_⟩
        have := Nat.div_add_mod n c.B
        rw [Nat.mul_add, Nat.mul_one]
        omega
    · rw [o5]; omega
    · rw [o5]
      unfold foundSpace Spec.firstKept
      split_ifs with h1 h2
      · exact Or.inl rfl
      · right; omega
      · right; omega
    · unfold firstRead
      by_cases hz : Spec.firstKept c.numVar c.B n = 0
      · left
        rw [if_pos hz]
        exact ⟨hz, rfl⟩
      · right
        rw [if_neg hz]
        refine ⟨by omega, rfl, ?_⟩
        rw [o5]
        unfold Spec.firstKept at hz
        unfold foundSpace
        by_cases h1 : n ≤ c.numVar
        · rw [if_pos h1] at hz; exact absurd rfl hz
        · rw [if_neg h1]
          by_cases h2 : n % c.numVar = 0
          · left; rw [if_pos h2]; exact hB0
          · exact Or.inr h2
    · intro ph p hp
      rw [o1, H.file] at hp
      exact LR.only hnv hid hp
    · rw [o1]; exact LR.count
    · intro j hj
      obtain ⟨p, p1, p2, p3⟩ := H.page j hj
      refine ⟨p, by rw [o1]; exact p1, fun hb => ?_, p2, p3⟩
      obtain ⟨q, q1, q2, -⟩ := H.stored hv hid hb hj
      rw [p1] at q1
      cases q1
      rw [o1]; exact q2
    · rcases o6 with ⟨h1, h2⟩ | ⟨h1, h2, r, r1, r2, r3⟩ | ⟨h1, h2, h3⟩
      · refine Or.inl ⟨?_, Or.inl h1, h2⟩
        rw [h1]; simp [Spec.firstKept]
      · have hra := mem_all_of_live r1
        have := hfit r hra
        have := hQr r hra
        have e1 : v.minRec % 256 ^ c.keySize = r.1 := by rw [r2]; exact Nat.mod_eq_of_lt (by omega)
        exact Or.inr (Or.inl ⟨h2, by omega, by omega, fun r' hr' => by rw [e1]; exact r3 r' hr'⟩)
      · exact Or.inr (Or.inr ⟨by omega, h3⟩)
    · intro i h1 h2 p hp
      rw [hd] at hp
      exact H.locs i h1 (by omega) p hp

end

end EDB
