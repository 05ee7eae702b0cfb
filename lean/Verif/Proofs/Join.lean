import Verif.Proofs.Query

/-! Helper lemmas: the key equijoin. -/

namespace EDB

variable {W : Type}

/-! ## Merge laws of the nested-loop join on ascending inputs -/

theorem join_nil_left (n : Nat) (bs : List (List Byte)) : Spec.join n [] bs = [] := rfl

theorem join_nil_right (n : Nat) (as : List (List Byte)) : Spec.join n as [] = [] := by
  simp [Spec.join]

theorem join_skip_left {n : Nat} {x : List Byte} {xs bs : List (List Byte)} (h : ∀ b ∈ bs, Spec.key n x ≠ Spec.key n b) :
    Spec.join n (x :: xs) bs = Spec.join n xs bs := by
  unfold Spec.join
  rw [List.flatMap_cons]
  have : bs.filter (fun b => decide (Spec.key n x = Spec.key n b)) = [] := by
    rw [List.filter_eq_nil_iff]
    intro b hb
    simpa using h b hb
  rw [this]
  rfl

theorem join_skip_right {n : Nat} {y : List Byte} {as ys : List (List Byte)} (h : ∀ a ∈ as, Spec.key n a ≠ Spec.key n y) :
    Spec.join n as (y :: ys) = Spec.join n as ys := by
  unfold Spec.join
  induction as with
  | nil => rfl
  | cons a as ih =>
    rw [List.flatMap_cons, List.flatMap_cons, ih fun a ha => h a (by simp [ha])]
    rw [List.filter_cons_of_neg (by simpa using h a (by simp))]

theorem join_lt {n : Nat} {x y : List Byte} {xs ys : List (List Byte)} (hy : Spec.Ascending n (y :: ys))
    (h : Spec.key n x < Spec.key n y) : Spec.join n (x :: xs) (y :: ys) = Spec.join n xs (y :: ys) := by
  apply join_skip_left
  intro b hb
  rw [List.mem_cons] at hb
  rcases hb with rfl | hb
  · omega
  · have := List.rel_of_pairwise_cons hy hb
    omega

theorem join_gt {n : Nat} {x y : List Byte} {xs ys : List (List Byte)} (hx : Spec.Ascending n (x :: xs))
    (h : Spec.key n y < Spec.key n x) : Spec.join n (x :: xs) (y :: ys) = Spec.join n (x :: xs) ys := by
  apply join_skip_right
  intro b hb
  rw [List.mem_cons] at hb
  rcases hb with rfl | hb
  · omega
  · have := List.rel_of_pairwise_cons hx hb
    omega

theorem join_eq {n : Nat} {x y : List Byte} {xs ys : List (List Byte)} (hx : Spec.Ascending n (x :: xs))
    (hy : Spec.Ascending n (y :: ys)) (h : Spec.key n x = Spec.key n y) :
    Spec.join n (x :: xs) (y :: ys) = (x ++ y) :: Spec.join n xs ys := by
  have h1 : Spec.join n xs (y :: ys) = Spec.join n xs ys := by
    apply join_skip_right
    intro a ha
    have := List.rel_of_pairwise_cons hx ha
    omega
  have h2 : ys.filter (fun b => decide (Spec.key n x = Spec.key n b)) = [] := by
    rw [List.filter_eq_nil_iff]
    intro b hb
    have := List.rel_of_pairwise_cons hy hb
    simp; omega
  rw [← h1]
  unfold Spec.join
  rw [List.flatMap_cons, List.filter_cons_of_pos (by simpa using h), h2]
  rfl

theorem ascending_tail {n : Nat} {x : List Byte} {xs : List (List Byte)} (h : Spec.Ascending n (x :: xs)) :
    Spec.Ascending n xs := List.Pairwise.of_cons h

theorem ascending_head {n : Nat} {x y : List Byte} {xs : List (List Byte)} (h : Spec.Ascending n (x :: y :: xs)) :
    Spec.key n x < Spec.key n y := List.rel_of_pairwise_cons h (by simp)

/-! ## The operator -/

/-- How an input ends: from a state in `E` the next call returns 0 and relates the states by `D`. -/
def Ending (I : W → Prop) (op : Oper W) (E : op.σ → Prop) (D : op.σ → op.σ → Prop) : Prop :=
  ∀ s, E s → ∀ w, I w → ∃ w' s', op.next w s = .ok (w', s', false) ∧ I w' ∧ D s s'

section

variable {I : W → Prop} {a b : Oper W} {n : Nat} {E1 : a.σ → Prop} {D1 : a.σ → a.σ → Prop}
  {E2 : b.σ → Prop} {D2 : b.σ → b.σ → Prop}

/-- Current rows `x`, `y`, remaining rows `xs`, `ys`. -/
structure JoinAt (I : W → Prop) (a b : Oper W) (n : Nat) (E1 : a.σ → Prop) (E2 : b.σ → Prop)
    (s : JoinSt a.σ b.σ) (x : List Byte) (xs : List (List Byte)) (y : List Byte) (ys : List (List Byte)) : Prop where
  hfirst : s.first = false
  ha : a.buf s.one = x
  hb : b.buf s.two = y
  la : ∀ r ∈ x :: xs, r.length = Spec.width a.schema
  lb : ∀ r ∈ y :: ys, r.length = Spec.width b.schema
  ax : Spec.Ascending n (x :: xs)
  ay : Spec.Ascending n (y :: ys)
  ya : YieldsThen I a E1 xs s.one
  yb : YieldsThen I b E2 ys s.two

/-- The state after the join returned 0. -/
def JoinDone (a b : Oper W) (n : Nat) (E1 : a.σ → Prop) (D1 : a.σ → a.σ → Prop) (E2 : b.σ → Prop) (D2 : b.σ → b.σ → Prop)
    (s : JoinSt a.σ b.σ) : Prop :=
  s.first = false ∧
    ((∃ s0, E1 s0 ∧ D1 s0 s.one ∧ Spec.key n (a.buf s0) ≤ Spec.key n (b.buf s.two) ∧
        (a.buf s0).length = Spec.width a.schema ∧ (b.buf s.two).length = Spec.width b.schema) ∨
     (∃ s0, E2 s0 ∧ D2 s0 s.two ∧ Spec.key n (b.buf s0) < Spec.key n (a.buf s.one) ∧
        (a.buf s.one).length = Spec.width a.schema ∧ (b.buf s0).length = Spec.width b.schema))

/-- What a call must return when `R` are the remaining output rows and `g` is the record buffer. -/
def JoinOut (I : W → Prop) (a b : Oper W) (n : Nat) (E1 : a.σ → Prop) (D1 : a.σ → a.σ → Prop) (E2 : b.σ → Prop)
    (D2 : b.σ → b.σ → Prop) (m : Nat) (g : List Byte) (R : List (List Byte)) (res : Res (W × JoinSt a.σ b.σ × Bool)) : Prop :=
  (R = [] → ∃ w' s', res = .ok (w', s', false) ∧ I w' ∧ s'.buf = g ∧ JoinDone a b n E1 D1 E2 D2 s') ∧
  ∀ r rest, R = r :: rest → ∃ w' s', res = .ok (w', s', true) ∧ I w' ∧ s'.buf = r ∧
    ∃ x xs y ys, JoinAt I a b n E1 E2 s' x xs y ys ∧ Spec.key n x = Spec.key n y ∧ Spec.join n xs ys = rest ∧
      xs.length + ys.length ≤ m

theorem joinCmp (hn : n = (a.schema.getD 0 0).natAbs) (hna : n ≤ Spec.width a.schema) (hnb : n ≤ Spec.width b.schema)
    {x y : List Byte} (hx : x.length = Spec.width a.schema) (hy : y.length = Spec.width b.schema) :
    compareUnsigned x y (a.schema.getD 0 0).natAbs = Spec.cmp3 (Spec.key n x) (Spec.key n y) := by
  rw [← hn]
  unfold compareUnsigned Spec.key
  rw [cmpBytes_eq x y n (by omega) (by omega), uval_eq, uval_eq]

theorem cmp3_eq_zero {p q : Int} : Spec.cmp3 p q = 0 ↔ p = q := by
  unfold Spec.cmp3
  by_cases h1 : p < q
  · rw [if_pos h1]; constructor <;> intro h <;> omega
  · rw [if_neg h1]; split_ifs <;> constructor <;> intro h <;> omega

theorem cmp3_neg {p q : Int} : Spec.cmp3 p q < 0 ↔ p < q := by
  unfold Spec.cmp3; split_ifs <;> omega

variable (hn : n = (a.schema.getD 0 0).natAbs) (hna : n ≤ Spec.width a.schema) (hnb : n ≤ Spec.width b.schema)
  (hwa : Spec.width a.schema < 2 ^ 16) (hwb : Spec.width b.schema < 2 ^ 16)
  (hE1 : Ending I a E1 D1) (hE2 : Ending I b E2 D2)

include hn hna hnb hwa hwb in
/-- The match check, given what the loop does when there is no match. -/
theorem join_check {f : Nat} {s : JoinSt a.σ b.σ} {x : List Byte} {xs : List (List Byte)} {y : List Byte}
    {ys : List (List Byte)} (h : JoinAt I a b n E1 E2 s x xs y ys) {w : W} (hi : I w) {m : Nat} (hm : xs.length + ys.length ≤ m)
    (hloop : Spec.key n x ≠ Spec.key n y → JoinOut I a b n E1 D1 E2 D2 m s.buf (Spec.join n (x :: xs) (y :: ys)) (joinLoop a b f w s)) :
    JoinOut I a b n E1 D1 E2 D2 m s.buf (Spec.join n (x :: xs) (y :: ys))
      (match joinMatch a b s with
      | some s => .ok (w, s, true)
      | none => joinLoop a b f w s) := by
  have hc := joinCmp hn hna hnb (h.la x (by simp)) (h.lb y (by simp))
  unfold joinMatch
  simp only [h.ha, h.hb, hc]
  by_cases hk : Spec.key n x = Spec.key n y
  · rw [if_pos (cmp3_eq_zero.2 (by exact_mod_cast hk))]
    rw [join_eq h.ax h.ay hk]
    refine ⟨by simp, ?_⟩
    intro r rest hr
    cases hr
    refine ⟨w, _, rfl, hi, ?_, x, xs, y, ys, ⟨h.hfirst, h.ha, h.hb, h.la, h.lb, h.ax, h.ay, h.ya, h.yb⟩, hk, rfl, hm⟩
    show x.take _ ++ y.take _ = x ++ y
    rw [take_of_width hwa (h.la x (by simp)), take_of_width hwb (h.lb y (by simp))]
  · rw [if_neg (fun h => hk (by exact_mod_cast cmp3_eq_zero.1 h))]
    exact hloop hk

include hn hna hnb hwa hwb hE1 hE2 in
theorem joinLoop_spec : ∀ (f : Nat) (s : JoinSt a.σ b.σ) (x : List Byte) (xs : List (List Byte)) (y : List Byte)
    (ys : List (List Byte)), JoinAt I a b n E1 E2 s x xs y ys → xs.length + ys.length < f → ∀ (m : Nat), xs.length + ys.length ≤ m → ∀ w, I w →
    JoinOut I a b n E1 D1 E2 D2 m s.buf
      (if Spec.key n x = Spec.key n y then Spec.join n xs ys else Spec.join n (x :: xs) (y :: ys)) (joinLoop a b f w s)
  | 0, _, _, _, _, _, _, hf, _, _, _, _ => by omega
  | f + 1, s, x, xs, y, ys, h, hf, m, hm, w, hi => by
    have hc := joinCmp hn hna hnb (h.la x (by simp)) (h.lb y (by simp))
    have hlx := h.la x (by simp)
    have hly := h.lb y (by simp)
    have ih := joinLoop_spec f
    unfold joinLoop
    simp only [h.ha, h.hb, hc]
    by_cases hk : Spec.key n x = Spec.key n y
    · rw [if_pos hk, if_pos (cmp3_eq_zero.2 (by exact_mod_cast hk))]
      cases xs with
      | nil =>
        obtain ⟨w', s', e1, e2, e3⟩ := hE1 s.one h.ya w hi
        rw [e1]
        refine ⟨fun _ => ⟨w', { s with one := s' }, rfl, e2, rfl, h.hfirst, Or.inl ⟨s.one, h.ya, e3, ?_, ?_, ?_⟩⟩, ?_⟩
        · rw [h.ha]; show _ ≤ Spec.key n (b.buf s.two); rw [h.hb]; omega
        · rw [h.ha]; exact hlx
        · show (b.buf s.two).length = _; rw [h.hb]; exact hly
        · intro r rest hr; rw [join_nil_left] at hr; cases hr
      | cons x' xs =>
        obtain ⟨w1, s1, e1, e2, e3, e4⟩ := h.ya w hi
        rw [e1]
        simp only [Res.ok_bind, if_true]
        cases ys with
        | nil =>
          obtain ⟨w', s', k1, k2, k3⟩ := hE2 s.two h.yb w1 e2
          rw [k1]
          refine ⟨fun _ => ⟨w', { s with one := s1, two := s' }, rfl, k2, rfl, h.hfirst, Or.inr ⟨s.two, h.yb, k3, ?_, ?_, ?_⟩⟩, ?_⟩
          · show _ < Spec.key n (a.buf s1); rw [h.hb, e3]; have := ascending_head h.ax; omega
          · show (a.buf s1).length = _; rw [e3]; exact h.la x' (by simp)
          · rw [h.hb]; exact hly
          · intro r rest hr; rw [join_nil_right] at hr; cases hr
        | cons y' ys =>
          obtain ⟨w2, s2, k1, k2, k3, k4⟩ := h.yb w1 e2
          rw [k1]
          simp only [Res.ok_bind, if_true]
          have hj : JoinAt I a b n E1 E2 { s with one := s1, two := s2 } x' xs y' ys :=
            ⟨h.hfirst, e3, k3, fun r hr => h.la r (by simp at hr ⊢; tauto), fun r hr => h.lb r (by simp at hr ⊢; tauto),
              ascending_tail h.ax, ascending_tail h.ay, e4, k4⟩
          simp only [List.length_cons] at hf hm
          refine join_check hn hna hnb hwa hwb hj k2 (m := m) (by omega) fun hne => ?_
          have := ih _ _ _ _ _ hj (by omega) m (by omega) w2 k2
          rw [if_neg hne] at this
          exact this
    · rw [if_neg hk, if_neg (fun h => hk (by exact_mod_cast cmp3_eq_zero.1 h))]
      by_cases hlt : Spec.key n x < Spec.key n y
      · rw [if_pos (cmp3_neg.2 (by exact_mod_cast hlt)), join_lt h.ay hlt]
        cases xs with
        | nil =>
          obtain ⟨w', s', e1, e2, e3⟩ := hE1 s.one h.ya w hi
          rw [e1]
          refine ⟨fun _ => ⟨w', { s with one := s' }, rfl, e2, rfl, h.hfirst, Or.inl ⟨s.one, h.ya, e3, ?_, ?_, ?_⟩⟩, ?_⟩
          · rw [h.ha]; show _ ≤ Spec.key n (b.buf s.two); rw [h.hb]; omega
          · rw [h.ha]; exact hlx
          · show (b.buf s.two).length = _; rw [h.hb]; exact hly
          · intro r rest hr; rw [join_nil_left] at hr; cases hr
        | cons x' xs =>
          obtain ⟨w1, s1, e1, e2, e3, e4⟩ := h.ya w hi
          rw [e1]
          simp only [Res.ok_bind, if_true]
          have hj : JoinAt I a b n E1 E2 { s with one := s1 } x' xs y ys :=
            ⟨h.hfirst, e3, h.hb, fun r hr => h.la r (by simp at hr ⊢; tauto), h.lb, ascending_tail h.ax, h.ay, e4, h.yb⟩
          simp only [List.length_cons] at hf hm
          refine join_check hn hna hnb hwa hwb hj e2 (m := m) (by omega) fun hne => ?_
          have := ih _ _ _ _ _ hj (by omega) m (by omega) w1 e2
          rw [if_neg hne] at this
          exact this
      · rw [if_neg (fun h => hlt (by exact_mod_cast cmp3_neg.1 h))]
        have hgt : Spec.key n y < Spec.key n x := by omega
        rw [join_gt h.ax hgt]
        cases ys with
        | nil =>
          obtain ⟨w', s', k1, k2, k3⟩ := hE2 s.two h.yb w hi
          rw [k1]
          refine ⟨fun _ => ⟨w', { s with two := s' }, rfl, k2, rfl, h.hfirst, Or.inr ⟨s.two, h.yb, k3, ?_, ?_, ?_⟩⟩, ?_⟩
          · show _ < Spec.key n (a.buf s.one); rw [h.hb, h.ha]; omega
          · show (a.buf s.one).length = _; rw [h.ha]; exact hlx
          · rw [h.hb]; exact hly
          · intro r rest hr; rw [join_nil_right] at hr; cases hr
        | cons y' ys =>
          obtain ⟨w2, s2, k1, k2, k3, k4⟩ := h.yb w hi
          rw [k1]
          simp only [Res.ok_bind, if_true]
          have hj : JoinAt I a b n E1 E2 { s with two := s2 } x xs y' ys :=
            ⟨h.hfirst, h.ha, k3, h.la, fun r hr => h.lb r (by simp at hr ⊢; tauto), h.ax, ascending_tail h.ay, h.ya, k4⟩
          simp only [List.length_cons] at hf hm
          refine join_check hn hna hnb hwa hwb hj k2 (m := m) (by omega) fun hne => ?_
          have := ih _ _ _ _ _ hj (by omega) m (by omega) w2 k2
          rw [if_neg hne] at this
          exact this

include hn hna hnb hwa hwb hE1 hE2 in
/-- From a state that just returned a row. -/
theorem join_after {F : Nat} {g : List Byte} (E' : (keyJoin F a b g).σ → Prop)
    (hE' : ∀ (s : JoinSt a.σ b.σ) x xs y ys, JoinAt I a b n E1 E2 s x xs y ys → Spec.key n x = Spec.key n y →
      xs.length + ys.length < F → Spec.join n xs ys = [] → E' s) :
    ∀ (R : List (List Byte)) (s : JoinSt a.σ b.σ) (x : List Byte) (xs : List (List Byte)) (y : List Byte)
      (ys : List (List Byte)), JoinAt I a b n E1 E2 s x xs y ys → Spec.key n x = Spec.key n y →
      xs.length + ys.length < F → Spec.join n xs ys = R → YieldsThen I (keyJoin F a b g) E' R s
  | [], s, x, xs, y, ys, h, hk, hF, hR => hE' s x xs y ys h hk hF hR
  | r :: R, s, x, xs, y, ys, h, hk, hF, hR => by
    intro w hi
    have hl := joinLoop_spec hn hna hnb hwa hwb hE1 hE2 F s x xs y ys h hF _ le_rfl w hi
    rw [if_pos hk] at hl
    obtain ⟨w', s', e1, e2, e3, x', xs', y', ys', e4, e5, e6, e7⟩ := hl.2 r R hR
    refine ⟨w', s', ?_, e2, e3, join_after E' hE' R s' x' xs' y' ys' e4 e5 (by omega) e6⟩
    show joinNext F a b w s = _
    unfold joinNext
    rw [h.hfirst]
    exact e1

include hn hna hnb hwa hwb hE1 hE2 in
/-- The first call. -/
theorem join_start {F : Nat} {g : List Byte} {xs ys : List (List Byte)} (hx : xs ≠ []) (hy : ys ≠ [])
    (la : ∀ r ∈ xs, r.length = Spec.width a.schema) (lb : ∀ r ∈ ys, r.length = Spec.width b.schema)
    (ax : Spec.Ascending n xs) (ay : Spec.Ascending n ys) (s : JoinSt a.σ b.σ) (hs : s.first = true)
    (ya : YieldsThen I a E1 xs s.one) (yb : YieldsThen I b E2 ys s.two) (hF : xs.length + ys.length < F) (w : W) (hi : I w) :
    JoinOut I a b n E1 D1 E2 D2 (xs.length + ys.length) s.buf (Spec.join n xs ys) ((keyJoin F a b g).next w s) := by
  obtain ⟨x, xs, rfl⟩ := List.exists_cons_of_ne_nil hx
  obtain ⟨y, ys, rfl⟩ := List.exists_cons_of_ne_nil hy
  show JoinOut I a b n E1 D1 E2 D2 _ s.buf (Spec.join n (x :: xs) (y :: ys)) (joinNext F a b w s)
  unfold joinNext
  rw [if_pos hs]
  obtain ⟨w1, s1, e1, e2, e3, e4⟩ := ya w hi
  simp only [e1, Res.ok_bind, if_true]
  obtain ⟨w2, s2, k1, k2, k3, k4⟩ := yb w1 e2
  simp only [k1, Res.ok_bind, if_true]
  have hj : JoinAt I a b n E1 E2 { s with first := false, one := s1, two := s2 } x xs y ys :=
    ⟨rfl, e3, k3, la, lb, ax, ay, e4, k4⟩
  simp only [List.length_cons] at hF ⊢
  refine join_check hn hna hnb hwa hwb hj k2 (by omega) fun hne => ?_
  have := joinLoop_spec hn hna hnb hwa hwb hE1 hE2 F _ _ _ _ _ hj (by omega) (xs.length + 1 + (ys.length + 1)) (by omega) w2 k2
  rw [if_neg hne] at this
  exact this

end

section

variable {I : W → Prop} {a b : Oper W} {n F : Nat} {g : List Byte} {xs ys : List (List Byte)}
  (hn : n = (a.schema.getD 0 0).natAbs) (hna : n ≤ Spec.width a.schema) (hnb : n ≤ Spec.width b.schema)
  (hwa : Spec.width a.schema < 2 ^ 16) (hwb : Spec.width b.schema < 2 ^ 16)
  (la : ∀ r ∈ xs, r.length = Spec.width a.schema) (lb : ∀ r ∈ ys, r.length = Spec.width b.schema)
  (ax : Spec.Ascending n xs) (ay : Spec.Ascending n ys) (s : JoinSt a.σ b.σ) (hs : s.first = true)
  (hF : xs.length + ys.length < F)

include hn hna hnb hwa hwb la lb ax ay hs hF in
theorem join_yields (ya : Yields I a xs s.one) (yb : Yields I b ys s.two) :
    Yields I (keyJoin F a b g) (Spec.join n xs ys) s := by
  have hE1 : Ending I a (Ends I a) (fun _ _ => True) := fun s h w hi => by
    obtain ⟨w', s', e1, e2⟩ := h w hi; exact ⟨w', s', e1, e2, trivial⟩
  have hE2 : Ending I b (Ends I b) (fun _ _ => True) := fun s h w hi => by
    obtain ⟨w', s', e1, e2⟩ := h w hi; exact ⟨w', s', e1, e2, trivial⟩
  by_cases hx : xs = []
  · subst hx
    intro w hi
    obtain ⟨w', s', e1, e2⟩ := ya w hi
    refine ⟨w', { s with first := false, one := s' }, ?_, e2⟩
    show joinNext F a b w s = _
    unfold joinNext
    rw [if_pos hs]
    simp [e1]
    rfl
  by_cases hy : ys = []
  · subst hy
    obtain ⟨x, xs, rfl⟩ := List.exists_cons_of_ne_nil hx
    rw [join_nil_right]
    intro w hi
    obtain ⟨w1, s1, e1, e2, e3, e4⟩ := ya w hi
    obtain ⟨w', s', k1, k2⟩ := yb w1 e2
    refine ⟨w', { s with first := false, one := s1, two := s' }, ?_, k2⟩
    show joinNext F a b w s = _
    unfold joinNext
    rw [if_pos hs]
    simp [e1, k1]
    rfl
  have hst := join_start (g := g) hn hna hnb hwa hwb hE1 hE2 hx hy la lb ax ay s hs ya yb hF
  cases hR : Spec.join n xs ys with
  | nil =>
    intro w hi
    obtain ⟨w', s', e1, e2, -⟩ := (hst w hi).1 hR
    exact ⟨w', s', e1, e2⟩
  | cons r R =>
    intro w hi
    obtain ⟨w', s', e1, e2, e3, x', xs', y', ys', e4, e5, e6, e7⟩ := (hst w hi).2 r R hR
    refine ⟨w', s', e1, e2, e3, join_after hn hna hnb hwa hwb hE1 hE2 (Ends I _) ?_ R s' x' xs' y' ys' e4 e5 (by omega) e6⟩
    intro s x xs y ys h hk hF' hj w hi
    have hl := joinLoop_spec hn hna hnb hwa hwb hE1 hE2 F s x xs y ys h hF' _ le_rfl w hi
    rw [if_pos hk] at hl
    obtain ⟨w', s', e1, e2, -⟩ := hl.1 hj
    refine ⟨w', s', ?_, e2⟩
    show joinNext F a b w s = _
    unfold joinNext
    rw [h.hfirst]
    exact e1

include hn hna hnb in
/-- Once it returned 0 on clean inputs, the join keeps returning 0. -/
theorem join_done_clean (hF0 : 0 < F) (s : JoinSt a.σ b.σ)
    (h : JoinDone a b n (EndsClean I a) (fun s s' => EndsClean I a s' ∧ a.buf s' = a.buf s)
      (EndsClean I b) (fun s s' => EndsClean I b s' ∧ b.buf s' = b.buf s) s) :
    EndsClean I (keyJoin F a b g) s := by
  refine ⟨fun s => JoinDone a b n (EndsClean I a) (fun s s' => EndsClean I a s' ∧ a.buf s' = a.buf s)
      (EndsClean I b) (fun s s' => EndsClean I b s' ∧ b.buf s' = b.buf s) s, h, ?_⟩
  clear h s
  rintro (s : JoinSt a.σ b.σ) ⟨hf, h⟩ w hi
  obtain ⟨F, rfl⟩ : ∃ k, F = k + 1 := ⟨F - 1, by omega⟩
  have hnext : (keyJoin (F + 1) a b g).next w s = joinLoop a b (F + 1) w s := by
    show joinNext _ a b w s = _
    unfold joinNext
    rw [hf]; rfl
  rcases h with ⟨s0, -, ⟨d1, d2⟩, hle, l1, l2⟩ | ⟨s0, -, ⟨d1, d2⟩, hle, l1, l2⟩
  · rw [← d2] at hle l1
    obtain ⟨P, p0, p1⟩ := d1
    obtain ⟨w', s', e1, e2, e3, e4⟩ := p1 s.one p0 w hi
    have hc := joinCmp hn hna hnb l1 l2
    have hfin : joinLoop a b (F + 1) w s = .ok (w', { s with one := s' }, false) := by
      unfold joinLoop
      simp only [hc]
      by_cases hk : Spec.key n (a.buf s.one) = Spec.key n (b.buf s.two)
      · rw [if_pos (cmp3_eq_zero.2 (by exact_mod_cast hk))]
        simp [e1]
      · rw [if_neg (fun h => hk (by exact_mod_cast cmp3_eq_zero.1 h)), if_pos (cmp3_neg.2 (by exact_mod_cast (by omega : Spec.key n (a.buf s.one) < Spec.key n (b.buf s.two))))]
        simp [e1]
    refine ⟨w', { s with one := s' }, by rw [hnext, hfin]; rfl, e2, ⟨hf, Or.inl ⟨s.one, ⟨P, p0, p1⟩, ⟨⟨P, e3, p1⟩, e4⟩, hle, l1, l2⟩⟩, rfl⟩
  · rw [← d2] at hle l2
    obtain ⟨P, p0, p1⟩ := d1
    obtain ⟨w', s', e1, e2, e3, e4⟩ := p1 s.two p0 w hi
    have hc := joinCmp hn hna hnb l1 l2
    have hfin : joinLoop a b (F + 1) w s = .ok (w', { s with two := s' }, false) := by
      unfold joinLoop
      simp only [hc]
      rw [if_neg (fun h => by have := cmp3_eq_zero.1 h; omega), if_neg (fun h => by have := cmp3_neg.1 h; omega)]
      simp [e1]
    refine ⟨w', { s with two := s' }, by rw [hnext, hfin]; rfl, e2, ⟨hf, Or.inr ⟨s.two, ⟨P, p0, p1⟩, ⟨⟨P, e3, p1⟩, e4⟩, hle, l1, l2⟩⟩, rfl⟩

include hn hna hnb hwa hwb la lb ax ay hs hF in
theorem join_clean (hx : xs ≠ []) (hy : ys ≠ []) (ya : YieldsClean I a xs s.one) (yb : YieldsClean I b ys s.two) :
    YieldsForever I (keyJoin F a b g) (Spec.join n xs ys) s := by
  have hE1 : Ending I a (EndsClean I a) (fun s s' => EndsClean I a s' ∧ a.buf s' = a.buf s) := by
    rintro s ⟨P, p0, p1⟩ w hi
    obtain ⟨w', s', e1, e2, e3, e4⟩ := p1 s p0 w hi
    exact ⟨w', s', e1, e2, ⟨P, e3, p1⟩, e4⟩
  have hE2 : Ending I b (EndsClean I b) (fun s s' => EndsClean I b s' ∧ b.buf s' = b.buf s) := by
    rintro s ⟨P, p0, p1⟩ w hi
    obtain ⟨w', s', e1, e2, e3, e4⟩ := p1 s p0 w hi
    exact ⟨w', s', e1, e2, ⟨P, e3, p1⟩, e4⟩
  have hst := join_start (g := g) hn hna hnb hwa hwb hE1 hE2 hx hy la lb ax ay s hs ya yb hF
  cases hR : Spec.join n xs ys with
  | nil =>
    refine ⟨fun t => t = s ∨ EndsClean I (keyJoin F a b g) t, Or.inl rfl, ?_⟩
    rintro t (rfl | ht) w hi
    · obtain ⟨w', s', e1, e2, e3, e4⟩ := (hst w hi).1 hR
      exact ⟨w', s', e1, e2, Or.inr (join_done_clean hn hna hnb (by omega) s' e4)⟩
    · obtain ⟨P, p0, p1⟩ := ht
      obtain ⟨w', s', e1, e2, e3, e4⟩ := p1 t p0 w hi
      exact ⟨w', s', e1, e2, Or.inr ⟨P, e3, p1⟩⟩
  | cons r R =>
    intro w hi
    obtain ⟨w', s', e1, e2, e3, x', xs', y', ys', e4, e5, e6, e7⟩ := (hst w hi).2 r R hR
    refine ⟨w', s', e1, e2, e3, join_after hn hna hnb hwa hwb hE1 hE2 (EndsForever I _) ?_ R s' x' xs' y' ys' e4 e5 (by omega) e6⟩
    intro s x xs y ys h hk hF' hj
    refine ⟨fun t => t = s ∨ EndsClean I (keyJoin F a b g) t, Or.inl rfl, ?_⟩
    rintro t (rfl | ht) w hi
    · have hl := joinLoop_spec hn hna hnb hwa hwb hE1 hE2 F t x xs y ys h hF' _ le_rfl w hi
      rw [if_pos hk] at hl
      obtain ⟨w', s', e1, e2, e3, e4⟩ := hl.1 hj
      refine ⟨w', s', ?_, e2, Or.inr (join_done_clean hn hna hnb (by omega) s' e4)⟩
      show joinNext F a b w t = _
      unfold joinNext
      rw [h.hfirst]
      exact e1
    · obtain ⟨P, p0, p1⟩ := ht
      obtain ⟨w', s', e1, e2, e3, e4⟩ := p1 t p0 w hi
      exact ⟨w', s', e1, e2, Or.inr ⟨P, e3, p1⟩⟩

end

end EDB
