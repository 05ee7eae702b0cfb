import Verif.Proofs.VarPut

/-! Helper lemmas: reading variable data back. -/

namespace EDB

/-- The cached variable page, if any, equals the stored one. -/
def VSync (v : Var) : Prop := ∀ ph, v.buffered = some ph → v.dev.file ph = some v.rbuf

/-- `v'` differs from `v` at most in the read buffer. -/
def VSame (v v' : Var) : Prop := v' = { v with rbuf := v'.rbuf, buffered := v'.buffered }

/-- Address of byte `q` of the stream. -/
def vaddr (c : Cfg) (q : Nat) : Nat := q / c.vcap * c.pageSize + c.vhdr + q % c.vcap

/-- `n` bytes of the stream from `q` on. -/
def slice (s : List Byte) (q n : Nat) : List Byte := (List.range n).map (fun i => s.getD (q + i) 0)

/-- The pages with the bytes `q` to `q + n` are stored. -/
def Holds (c : Cfg) (v : Var) (s : List Byte) (q n : Nat) : Prop :=
  ∀ j, q / c.vcap ≤ j → j * c.vcap < q + n → ∃ p, v.dev.file (j % c.numVar) = some p ∧
    ∀ o, o < c.vcap → p (c.vhdr + o) = s.getD (j * c.vcap + o) 0

/-- A stream offset that stands for byte `q`. -/
def At (c : Cfg) (off q : Nat) : Prop :=
  off % c.pageSize = c.vhdr + q % c.vcap ∧ off / c.pageSize % c.numVar = q / c.vcap % c.numVar

section
variable {c : Cfg} {E : Mode} {lo K : Nat} {g : Gh} {v : Var} {s : List Byte}

theorem VSame.refl (v : Var) : VSame v v := rfl

theorem VSame.trans {u v w : Var} (h1 : VSame u v) (h2 : VSame v w) : VSame u w := by
  unfold VSame at *
  rw [h1] at h2
  exact h2

theorem VSame.dev {u v : Var} (h : VSame u v) : v.dev = u.dev := by rw [h]

theorem VSame.next {u v : Var} (h : VSame u v) : v.next = u.next := by rw [h]

theorem VSim.recache {vmin : Nat} {ks : List Nat} (V : VSim c vmin s ks v) {v' : Var} (h : VSame v v') (hs : VSync v') :
    VSim c vmin s ks v' := by
  have e := h
  unfold VSame at e
  unfold VSync at hs
  generalize v'.rbuf = rb at *
  generalize v'.buffered = bf at *
  subst e
  simp only at hs
  exact ⟨V.lo, V.hi, V.loc, V.klen, V.dvd, V.sum, V.tight, V.stored, V.buf, fun ph hp => V.only ph _ (hs ph hp),
    fun ph hp j _ _ _ => Or.inl (hs ph hp), V.only⟩

theorem VInv.recache (I : VInv c E lo K g v) {v' : Var} (h : VSame v v') (hs : VSync v') : VInv c E lo K g v' := by
  have hb : vbase c v' = vbase c v := by rw [h]; rfl
  refine ⟨by rw [hb]; exact I.sim.recache h hs, ?_, ?_, ?_, I.wrap, I.era, I.bound⟩
  · rw [h]; exact I.lim
  · intro hE
    have Kk := I.keys hE
    rw [h]
    exact ⟨Kk.pages, Kk.tops, Kk.buf, Kk.last, Kk.jr.grow I.sim.lo (List.prefix_refl _) rfl rfl rfl⟩
  · rw [h]; exact I.minOk

theorem Holds.same {v' : Var} {q n : Nat} (H : Holds c v s q n) (h : VSame v v') : Holds c v' s q n := by
  unfold Holds; rw [h.dev]; exact H

theorem readVar_sync (hs : VSync v) (ph : Nat) : VSame v (readVar v ph).1 ∧ VSync (readVar v ph).1 ∧
    ∀ p, v.dev.file ph = some p → (readVar v ph).2 = true ∧ (readVar v ph).1.rbuf = p := by
  unfold readVar
  by_cases hb : v.buffered = some ph
  · rw [if_pos hb]
    refine ⟨rfl, hs, fun p hp => ⟨rfl, ?_⟩⟩
    have := hs ph hb
    rw [hp] at this
    exact (Option.some.inj this).symm
  · rw [if_neg hb]
    cases hf : v.dev.file ph with
    | none => exact ⟨rfl, hs, fun p hp => by cases hp⟩
    | some q =>
      refine ⟨rfl, ?_, fun p hp => ⟨rfl, by simpa using hp⟩⟩
      intro ph' hp'
      simp only [Option.some.injEq] at hp' ⊢
      rw [← hp', hf]

theorem slice_append (s : List Byte) (q n m : Nat) : slice s q n ++ slice s (q + n) m = slice s q (n + m) := by
  unfold slice
  rw [List.range_add, List.map_append, List.map_map]
  congr 1
  apply List.map_congr_left
  intro i _
  simp [Function.comp, Nat.add_assoc]

theorem slice_length (s : List Byte) (q n : Nat) : (slice s q n).length = n := by simp [slice]

theorem slice_mid (pre bs post : List Byte) : slice (pre ++ bs ++ post) pre.length bs.length = bs := by
  apply List.ext_getElem
  · rw [slice_length]
  · intro i h1 h2
    simp only [slice, List.getElem_map, List.getElem_range]
    rw [List.getD_eq_getElem?_getD, List.append_assoc, List.getElem?_append_right (by omega),
      List.getElem?_append_left (by omega), show pre.length + i - pre.length = i by omega, List.getElem?_eq_getElem h2]
    rfl

/-- Bytes read from a page of the stream. -/
theorem rd_page {p : Page} {j r n : Nat} (hp : ∀ o, o < c.vcap → p (c.vhdr + o) = s.getD (j * c.vcap + o) 0)
    (hf : r + n ≤ c.vcap) : rd p (c.vhdr + r) n = slice s (j * c.vcap + r) n := by
  unfold rd slice
  apply List.map_congr_left
  intro i hi
  rw [List.mem_range] at hi
  rw [Nat.add_assoc, hp _ (by omega), Nat.add_assoc]

theorem loop_ok (h : c.VFile) (len : Nat) : ∀ (f : Nat) (v : Var) (st : Stream) (pg : Nat) (acc : List Byte) (q : Nat),
    VSync v →
    (acc.length < len ∧ st.read < st.total → pg = q / c.vcap % c.numVar ∧ (∀ o, o < c.vcap → v.rbuf (c.vhdr + o) = s.getD (q / c.vcap * c.vcap + o) 0)) →
    At c st.off q → Holds c v s q (min (len - acc.length) (st.total - st.read)) → min (len - acc.length) (st.total - st.read) < f →
    ∃ v' st', streamLoop c len f v st pg acc = .ok (v', st', acc ++ slice s q (min (len - acc.length) (st.total - st.read))) ∧
      VSame v v' ∧ VSync v' ∧ st'.total = st.total ∧ st'.read = st.read + min (len - acc.length) (st.total - st.read) ∧
      (At c st'.off (q + min (len - acc.length) (st.total - st.read)) ∨
        (0 < min (len - acc.length) (st.total - st.read) ∧ (q + min (len - acc.length) (st.total - st.read)) % c.vcap = 0)) := by
  have hcap := h.cap4
  have hps := h.ps
  have hnv := h.nv
  intro f
  induction f with
  | zero => intro v st pg acc q _ _ _ _ hf; omega
  | succ f ih =>
    intro v st pg acc q hs hp hat hH hf
    unfold streamLoop
    by_cases hc : acc.length < len ∧ st.read < st.total
    · rw [if_pos hc]
      obtain ⟨hpg, hrb⟩ := hp hc
      obtain ⟨a1, a2⟩ := hat
      obtain ⟨n, hn⟩ : ∃ n, n = min (st.total - st.read) (min (c.pageSize - st.off % c.pageSize) (len - acc.length)) := ⟨_, rfl⟩
      obtain ⟨R, hR⟩ : ∃ R, R = min (len - acc.length) (st.total - st.read) := ⟨_, rfl⟩
      rw [← hR] at hH hf ⊢
      have hm : q % c.vcap < c.vcap := Nat.mod_lt _ (by omega)
      have hdm : q / c.vcap * c.vcap + q % c.vcap = q := Nat.div_add_mod' q c.vcap
      have hn0 : 0 < n := by omega
      have hnR : n ≤ R := by omega
      have hnc : q % c.vcap + n ≤ c.vcap := by omega
      simp only [← hn]
      have hrd : rd v.rbuf (st.off % c.pageSize) n = slice s q n := by
        rw [a1, rd_page hrb hnc, hdm]
      rw [hrd]
      have hoff : st.off / c.pageSize * c.pageSize + st.off % c.pageSize = st.off := Nat.div_add_mod' _ _
      by_cases hmore : (acc ++ slice s q n).length < len ∧ st.read + n < st.total
      · rw [if_pos hmore]
        simp only [List.length_append, slice_length] at hmore
        have hn' : n = c.vcap - q % c.vcap := by omega
        have hqn : q + n = (q / c.vcap + 1) * c.vcap := by
          have e : (q / c.vcap + 1) * c.vcap = q / c.vcap * c.vcap + c.vcap := by ring
          omega
        have hqd : (q + n) / c.vcap = q / c.vcap + 1 := by rw [hqn, Nat.mul_div_cancel _ (by omega)]
        have hqm : (q + n) % c.vcap = 0 := by rw [hqn, Nat.mul_mod_left]
        have hph : (pg + 1) % c.numVar = (q + n) / c.vcap % c.numVar := by
          rw [hpg, hqd, Nat.mod_add_mod]
        obtain ⟨p, p1, p2⟩ := hH (q / c.vcap + 1) (by omega) (by omega)
        obtain ⟨r1, r2, r3⟩ := readVar_sync hs ((pg + 1) % c.numVar)
        obtain ⟨r4, r5⟩ := r3 p (by rw [hph, hqd]; exact p1)
        simp only [r4, if_true]
        have ho : st.off + n + c.vhdr = (st.off / c.pageSize + 1) * c.pageSize + c.vhdr := by
          have e : (st.off / c.pageSize + 1) * c.pageSize = st.off / c.pageSize * c.pageSize + c.pageSize := by ring
          omega
        obtain ⟨v', st', q1, q2, q3, q4, q5, q6⟩ := ih (readVar v ((pg + 1) % c.numVar)).1
          { st with read := st.read + n, off := st.off + n + c.vhdr } ((pg + 1) % c.numVar) (acc ++ slice s q n) (q + n) r2
          (fun _ => ⟨hph, by rw [r5, hqd]; exact p2⟩)
          (by
            constructor
            · simp only
              rw [ho, hqm, Nat.mul_comm, Nat.mul_add_mod, Nat.mod_eq_of_lt (by omega)]; rfl
            · simp only
              rw [ho, hqd, Nat.mul_comm, Nat.mul_add_div (by omega), Nat.div_eq_of_lt (show c.vhdr < c.pageSize by omega),
                Nat.add_zero, ← Nat.mod_add_mod, a2, Nat.mod_add_mod])
          (by
            simp only [List.length_append, slice_length]
            intro j j1 j2
            rw [hqd] at j1
            obtain ⟨p, p1, p2⟩ := hH j (by omega) (by omega)
            exact ⟨p, by rw [r1.dev]; exact p1, p2⟩)
          (by simp only [List.length_append, slice_length]; omega)
        simp only [List.length_append, slice_length] at q1 q5 q6
        have hR' : min (len - (acc.length + n)) (st.total - (st.read + n)) = R - n := by omega
        rw [hR'] at q1 q5 q6
        have hqR : q + n + (R - n) = q + R := by omega
        refine ⟨v', st', ?_, r1.trans q2, q3, q4, by omega, ?_⟩
        · rw [q1, List.append_assoc, slice_append]
          congr 5
          omega
        · rw [hqR] at q6
          rcases q6 with h1 | h1
          · exact Or.inl h1
          · exact Or.inr ⟨by omega, h1.2⟩
      · rw [if_neg hmore]
        simp only [List.length_append, slice_length] at hmore
        have hnR' : R = n ∨ n = c.vcap - q % c.vcap := by omega
        have hRn : R = n := by omega
        obtain ⟨f', rfl⟩ : ∃ f', f = f' + 1 := ⟨f - 1, by omega⟩
        unfold streamLoop
        simp only [List.length_append, slice_length]
        rw [if_neg hmore, hRn]
        refine ⟨v, _, rfl, rfl, hs, rfl, rfl, ?_⟩
        simp only
        by_cases hb : q % c.vcap + n < c.vcap
        · left
          have e1 : (q + n) % c.vcap = q % c.vcap + n := by
            conv_lhs => rw [← hdm, Nat.add_assoc, Nat.mul_comm, Nat.mul_add_mod]
            exact Nat.mod_eq_of_lt hb
          have e2 : (q + n) / c.vcap = q / c.vcap := by
            conv_lhs => rw [← hdm, Nat.add_assoc, Nat.mul_comm, Nat.mul_add_div (by omega)]
            rw [Nat.div_eq_of_lt hb]; rfl
          constructor
          · rw [e1]
            conv_lhs => rw [← hoff, Nat.add_assoc, Nat.mul_comm, Nat.mul_add_mod]
            rw [Nat.mod_eq_of_lt (by omega)]
            omega
          · rw [e2, ← a2]
            congr 1
            conv_lhs => rw [← hoff, Nat.add_assoc, Nat.mul_comm, Nat.mul_add_div (by omega)]
            rw [Nat.div_eq_of_lt (show st.off % c.pageSize + n < c.pageSize by omega)]; rfl
        · right
          refine ⟨hn0, ?_⟩
          have : q + n = (q / c.vcap + 1) * c.vcap := by
            have e : (q / c.vcap + 1) * c.vcap = q / c.vcap * c.vcap + c.vcap := by ring
            omega
          rw [this, Nat.mul_mod_left]
    · rw [if_neg hc]
      have hz : min (len - acc.length) (st.total - st.read) = 0 := by omega
      rw [hz]
      refine ⟨v, st, by simp [slice], rfl, hs, rfl, rfl, Or.inl hat⟩

/-- One call of `embedDBVarDataStreamRead` at byte `q`. -/
theorem streamRead_ok (h : c.VFile) {len : Nat} {st : Stream} {q : Nat} (hs : VSync v) (hat : At c st.off q)
    (hH : Holds c v s q (min len (st.total - st.read))) :
    ∃ v' st', streamRead c v st len = .ok (v', st', slice s q (min len (st.total - st.read))) ∧
      VSame v v' ∧ VSync v' ∧ st'.total = st.total ∧ st'.read = st.read + min len (st.total - st.read) ∧
      (At c st'.off (q + min len (st.total - st.read)) ∨
        (0 < min len (st.total - st.read) ∧ (q + min len (st.total - st.read)) % c.vcap = 0)) := by
  have hcap := h.cap4
  unfold streamRead
  simp only
  obtain ⟨r1, r2, r3⟩ := readVar_sync hs (st.off / c.pageSize % c.numVar)
  by_cases h0 : min len (st.total - st.read) = 0
  · rw [h0]
    by_cases hr : (readVar v (st.off / c.pageSize % c.numVar)).2 = true
    · rw [if_pos hr]
      unfold streamLoop
      rw [if_neg (by simp only [List.length_nil]; omega)]
      exact ⟨_, st, by simp [slice], r1, r2, rfl, rfl, Or.inl hat⟩
    · rw [if_neg hr]
      exact ⟨_, st, by simp [slice], r1, r2, rfl, rfl, Or.inl hat⟩
  · have hdm : q / c.vcap * c.vcap + q % c.vcap = q := Nat.div_add_mod' q c.vcap
    obtain ⟨p, p1, p2⟩ := hH (q / c.vcap) (le_refl _) (by omega)
    obtain ⟨r4, r5⟩ := r3 p (by rw [hat.2]; exact p1)
    rw [if_pos r4]
    have := loop_ok (s := s) h len (len + 2) _ st (st.off / c.pageSize % c.numVar) [] q r2
      (fun _ => ⟨hat.2, by rw [r5]; exact p2⟩) hat (by simpa using hH.same r1) (by simp only [List.length_nil]; omega)
    simp only [List.length_nil, Nat.sub_zero, List.nil_append] at this
    obtain ⟨v', st', q1, q2, q3, q4, q5, q6⟩ := this
    exact ⟨v', st', q1, r1.trans q2, q3, q4, q5, q6⟩

end

end EDB
