import Verif.Spec.Wear
import Verif.Props.Wear

/-! Helper lemmas: erases and writes over the life of a data file with power failures. -/

namespace EDB

open Spec (Log Op Out)

theorem LifeR.life {c : Cfg} {lo K P : Nat} {R : List Nat} {d : Data} {L : Log} (h : LifeR c lo K P R d L) : Life c lo K P d L := by
  induction h with
  | new rb sm => exact .new rb sm
  | op h e hput hP ih => exact .op ih e hput hP
  | cut h k rb sm hs e ih => exact .cut ih k rb sm hs e

theorem Life.exists_reopenings {c : Cfg} {lo K P : Nat} {d : Data} {L : Log} (h : Life c lo K P d L) : ∃ R, LifeR c lo K P R d L := by
  induction h with
  | new rb sm => exact ⟨_, .new rb sm⟩
  | op h e hput hP ih => obtain ⟨R, h1⟩ := ih; exact ⟨_, .op h1 e hput hP⟩
  | cut h k rb sm hs e ih => obtain ⟨R, h1⟩ := ih; exact ⟨_, .cut h1 k rb sm hs e⟩

/-- The first page of a reused block goes without erase: the file was reopened right there. -/
def Skips (c : Cfg) (R : List Nat) (n : Nat) : Prop := R.head? = some n ∧ c.N < n ∧ n % c.N ≠ 0

/-- The storage operations of a file reopened with `R` pages. -/
inductive Worn (c : Cfg) : List Nat → List Ev → Prop
  | nil : Worn c [] []
  | renew {R : List Nat} {log : List Ev} (h : Worn c R log) (p : Page) (h1 : c.N ≤ (Spec.writes log).length)
      (h2 : (Spec.writes log).length % c.B = 0) :
      Worn c R (log ++ [.erase ((Spec.writes log).length % c.N) ((Spec.writes log).length % c.N + c.B)] ++
        [.write ((Spec.writes log).length % c.N) p])
  | plain {R : List Nat} {log : List Ev} (h : Worn c R log) (p : Page)
      (h1 : c.N ≤ (Spec.writes log).length → (Spec.writes log).length % c.B = 0 → Skips c R (Spec.writes log).length) :
      Worn c R (log ++ [.write ((Spec.writes log).length % c.N) p])
  | cut {R : List Nat} {log : List Ev} (h : Worn c R log) (k : Nat) :
      Worn c ((Spec.writes (log.take k)).length :: R) (log.take k)

/-- Where a new table starts to know its pages. -/
def startOf (c : Cfg) (R : List Nat) : Nat := match R.head? with
  | none => 0
  | some n => Spec.recovered c.N c.B n

section
variable {c : Cfg} {lo K P : Nat} {R : List Nat} {d d' : Data} {L : Log}

theorem step_log (hok : c.Ok K) {x x' : Idx} {op : Op} {o : Out} (e : step c d x op = .ok (d', x', o)) :
    d'.dev.log = d.dev.log ∨ ∃ p, d'.dev.log = d.dev.log ++
      (if d.avail = 0 then [Ev.erase (d.next % c.N) (d.next % c.N + c.B)] else []) ++ [Ev.write (d.next % c.N) p] := by
  cases op with
  | put k v =>
    have E := orderCheck_same (c := c) d k
    simp only [EDB.step] at e
    rw [putD_eq hok] at e
    split_ifs at e
    · cases e
      unfold accepted
      simp only
      by_cases hf : pageCount (orderCheck c d k).1.wbuf ≥ c.maxRec
      · rw [if_pos hf]
        right
        refine ⟨outPage (orderCheck c d k).1, ?_⟩
        rw [← E.dev, ← E.avail, ← E.next]; rfl
      · rw [if_neg hf]
        left; exact congrArg Dev.log E.dev
    · cases e
      left; exact congrArg Dev.log E.dev
  | flush =>
    simp only [EDB.step] at e
    rw [flushD_eq hok.io hok.spline] at e
    split_ifs at e
    · cases e; exact Or.inl rfl
    · cases e; exact Or.inr ⟨outPage d, rfl⟩
  | get k =>
    simp only [EDB.step] at e
    obtain ⟨⟨d1, r, out⟩, h1, e⟩ := Res.bind_eq_ok e
    cases e
    exact Or.inl (congrArg Dev.log (get_same h1).dev)
  | scan q =>
    simp only [EDB.step] at e
    obtain ⟨⟨d1, x1, rs⟩, h1, e⟩ := Res.bind_eq_ok e
    cases e
    exact Or.inl (congrArg Dev.log (scanAll_same h1).dev)

/-- A block is reused without erase only right after reopening. -/
theorem skips_of (hok : c.Ok K) (T : TableM c lo K (startOf c R) (clr d) L) (hR : ∀ n, R.head? = some n → n ≤ d.next)
    (ha : d.avail ≠ 0) (h1 : c.N ≤ d.next) (h2 : d.next % c.B = 0) : Skips c R d.next := by
  have hs : d.next + d.avail = d.min + c.N := T.room.sum
  have hdv : c.B ∣ d.min := T.room.dvd
  have hB0 := hok.B0
  -- a whole block is free
  have hav : c.B ≤ d.avail := by
    obtain ⟨a, ha'⟩ := hdv
    obtain ⟨b, hb⟩ := hok.dvd
    obtain ⟨n, hn⟩ := Nat.dvd_of_mod_eq_zero h2
    have : c.B ∣ d.avail := (Nat.dvd_add_right ⟨n, hn⟩).mp ⟨a + b, by rw [hs, ha', hb]; ring⟩
    exact Nat.le_of_dvd (by omega) this
  have hm : d.min = startOf c R := by
    rcases T.tight with h | h
    · exact h
    · have : d.avail < c.B := h
      omega
  unfold startOf at hm
  unfold Skips
  cases hh : R.head? with
  | none => rw [hh] at hm; simp only at hm; omega
  | some n =>
    rw [hh] at hm
    simp only at hm
    have hn := hR n hh
    have hNn : c.N < n := by
      by_contra h
      rw [recovered_small (by omega)] at hm
      omega
    have hr : n % c.N ≠ 0 := by
      intro h
      rw [recovered_end hB0 hok.dvd (by omega) h] at hm
      omega
    rw [recovered_mid hB0 hok.dvd hNn hr] at hm
    have h3 := Nat.mod_lt n hB0
    have : d.next = n := by
      -- both are multiples of the block size, less than a block apart
      have h4 := Nat.div_add_mod n c.B
      have h5 := Nat.div_add_mod d.next c.B
      have h6 : d.next ≤ n - n % c.B := by omega
      omega
    exact ⟨by rw [this], by omega, by rw [this]; exact hr⟩

theorem LifeR.worn (D : Durable c lo K P) (h : LifeR c lo K P R d L) :
    Worn c R d.dev.log ∧ GoodLog c d.dev.log ∧ (∀ n, R.head? = some n → n ≤ d.next) ∧ d.next < P ∧
      (startOf c R = 0 ∨ c.maxErr ≤ 1) ∧ Journal c d L ∧ TableM c lo K (startOf c R) (clr d) L := by
  have h32 : P ≤ 2 ^ 32 := by have := D.bounds.pages; omega
  have hok := D.ok
  induction h with
  | new rb sm =>
    exact ⟨.nil, .nil, by simp, D.pos, Or.inl rfl, Journal.fresh rb sm, (fresh_table hok rb sm).clr⟩
  | @op R d d' L x x' op o h e hput hP ih =>
    obtain ⟨W, -, hR, -, hm, J, T⟩ := ih
    have J' := J.step hok T (by omega) e
    have T' : TableM c lo K (startOf c R) (clr d') (Spec.logAfter c.maxRec L [(op, some o)]) := by
      rcases T.core_step hok hm D.bounds (by omega) hput e with ⟨k, v, rfl, rfl, T'⟩ | ⟨k, v, rfl, rfl, T'⟩ | ⟨rfl, rfl, T'⟩ | ⟨hr, T'⟩
      · exact T'
      · simpa [Spec.logAfter] using T'
      · exact T'
      · cases op with
        | put k v => simp [Op.isRead] at hr
        | flush => simp [Op.isRead] at hr
        | get k => exact T'
        | scan q => exact T'
    have n0 : d.next = L.pages.length := T.sim.next
    have n1 : d'.next = _ := T'.sim.next
    have c0 : (Spec.writes d.dev.log).length = d.next := by rw [← wrote_length, J.count, n0]
    have c1 : (Spec.writes d'.dev.log).length = d'.next := by rw [← wrote_length, J'.count, n1]
    rcases step_log hok e with hl | ⟨p, hl⟩
    · have : d'.next = d.next := by rw [← c1, hl, c0]
      exact ⟨by rw [hl]; exact W, J'.good, by rw [this]; exact hR, by omega, hm, J', T'⟩
    · have hn1 : d'.next = d.next + 1 := by
        rw [← c1, hl, writes_append, writes_append, List.length_append, List.length_append, c0]
        split_ifs <;> simp [Spec.writes]
      refine ⟨?_, J'.good, fun n hn => by have := hR n hn; omega, by omega, hm, J', T'⟩
      have hs : d.next + d.avail = d.min + c.N := T.room.sum
      have hdv : c.B ∣ d.min := T.room.dvd
      rw [hl]
      by_cases ha : d.avail = 0
      · rw [if_pos ha, ← c0]
        refine .renew W p (by omega) ?_
        rw [c0, show d.next = d.min + c.N by omega]
        exact Nat.mod_eq_zero_of_dvd (Nat.dvd_add hdv hok.dvd)
      · rw [if_neg ha, List.append_nil, ← c0]
        refine .plain W p ?_
        rw [c0]
        exact skips_of hok T hR ha
  | @cut R d d' L h k rb sm hz e ih =>
    obtain ⟨W, hG, hR, hlt, hm, J, T⟩ := ih
    have hn : d.next = _ := T.sim.next
    obtain ⟨d1, n, g1, g2, g3, g4, g5, g6, g7, g8, g9, g10⟩ := reopen_ok hok D.bounds h32 D.recs127 D.file32 D.eraser J T.sim.sorted T.sim.bound
      T.sim.full T.cap (by omega) k hz rb sm
    rw [e] at g1
    cases g1
    have hs' : Spec.recovered c.N c.B n = 0 ∨ c.maxErr ≤ 1 := by
      rcases D.spline with h | h
      · exact Or.inr h
      · exact Or.inl (recovered_small (by omega))
    have hst : startOf c ((Spec.writes (d.dev.log.take k)).length :: R) = Spec.recovered c.N c.B n := by
      unfold startOf; rw [← g2]; rfl
    have hdl : d'.dev.log = d.dev.log.take k := by rw [g5]; rfl
    refine ⟨by rw [hdl]; exact .cut W k, g4.good, ?_, by omega, by rw [hst]; exact hs', g4, by rw [hst]; exact (g10 hs').clr⟩
    intro j hj
    rw [List.head?_cons, Option.some.injEq] at hj
    omega

end

/-! ### Erased first -/

/-- The block is erased when the file has `b` pages. -/
def ErasedAt (c : Cfg) (log : List Ev) (b : Nat) : Prop :=
  ∃ l1 l2, log = l1 ++ Ev.erase (b % c.N) (b % c.N + c.B) :: l2 ∧ (Spec.writes l1).length = b

section
variable {c : Cfg} {R : List Nat} {log : List Ev}

theorem ErasedAt.append {b : Nat} (h : ErasedAt c log b) (m : List Ev) : ErasedAt c (log ++ m) b := by
  obtain ⟨l1, l2, rfl, h2⟩ := h
  exact ⟨l1, l2 ++ m, by simp, h2⟩

theorem writes_take_le (l : List Ev) (k : Nat) : (Spec.writes (l.take k)).length ≤ (Spec.writes l).length := by
  conv_rhs => rw [← List.take_append_drop k l, writes_append, List.length_append]
  omega

theorem ErasedAt.take {b k : Nat} (h : ErasedAt c log b) (hb : b < (Spec.writes (log.take k)).length) : ErasedAt c (log.take k) b := by
  obtain ⟨l1, l2, rfl, h2⟩ := h
  have hk : l1.length < k := by
    by_contra h
    rw [List.take_append_of_le_length (by omega)] at hb
    have := writes_take_le l1 k
    omega
  refine ⟨l1, l2.take (k - l1.length - 1), ?_, h2⟩
  obtain ⟨j, rfl⟩ : ∃ j, k = l1.length + 1 + j := ⟨k - l1.length - 1, by omega⟩
  rw [List.take_append, List.take_of_length_le (by omega), show l1.length + 1 + j - l1.length = j + 1 by omega, List.take_succ_cons]
  simp

/-- Blocks are erased before they are reused, except where the file was reopened. -/
theorem Worn.erased (h : Worn c R log) : ∀ b, c.B ∣ b → c.N ≤ b → b < (Spec.writes log).length →
    ¬ (b ∈ R ∧ c.N < b ∧ b % c.N ≠ 0) → ErasedAt c log b := by
  induction h with
  | nil => intro b _ _ h; simp [Spec.writes] at h
  | @renew R log h p h1 h2 ih =>
    intro b hb hN hlt hx
    rw [writes_append, writes_append] at hlt
    simp only [Spec.writes, List.length_append, List.length_nil, List.length_cons] at hlt
    by_cases e : b < (Spec.writes log).length
    · rw [List.append_assoc]; exact (ih b hb hN e hx).append _
    · have : b = (Spec.writes log).length := by omega
      subst this
      exact ⟨log, [Ev.write ((Spec.writes log).length % c.N) p], by simp, rfl⟩
  | @plain R log h p h1 ih =>
    intro b hb hN hlt hx
    rw [writes_append] at hlt
    simp only [Spec.writes, List.length_append, List.length_nil, List.length_cons] at hlt
    by_cases e : b < (Spec.writes log).length
    · exact (ih b hb hN e hx).append _
    · have : b = (Spec.writes log).length := by omega
      subst this
      obtain ⟨g1, g2, g3⟩ := h1 hN (Nat.mod_eq_zero_of_dvd hb)
      exact absurd ⟨List.mem_of_mem_head? g1, g2, g3⟩ hx
  | @cut R log h k ih =>
    intro b hb hN hlt hx
    exact (ih b hb hN (lt_of_lt_of_le hlt (writes_take_le _ _)) (fun g => hx ⟨List.mem_cons_of_mem _ g.1, g.2⟩)).take hlt

theorem ring_at {N : Nat} (hr : (Spec.writes log).map Prod.fst = (List.range (Spec.writes log).length).map (· % N)) {l1 l2 : List Ev}
    {ph : Nat} {p : Page} (e : log = l1 ++ Ev.write ph p :: l2) : ph = (Spec.writes l1).length % N := by
  have hw : Spec.writes log = Spec.writes l1 ++ (ph, p) :: Spec.writes l2 := by rw [e, writes_append]; rfl
  have h1 : ((Spec.writes log).map Prod.fst)[(Spec.writes l1).length]? = some ph := by
    rw [hw]; simp
  rw [hr] at h1
  have : (Spec.writes l1).length < (Spec.writes log).length := by rw [hw]; simp
  rw [List.getElem?_map, List.getElem?_range this] at h1
  simpa using h1.symm

theorem Worn.erasedFirst (hB : 0 < c.B) (hd : c.B ∣ c.N) (hN : 0 < c.N) (h : Worn c R log) (hG : GoodLog c log) :
    Spec.ErasedFirstBut (fun n => ∃ b ∈ R, c.N < b ∧ b % c.B = 0 ∧ b % c.N ≠ 0 ∧ b ≤ n ∧ n < b + c.B) log := by
  intro l1 ph p l2 e hx a p' b e2
  have r1 := ring_at hG.ring e
  have r2 := ring_at (l1 := a) (l2 := b ++ Ev.write ph p :: l2) (p := p') (ph := ph) hG.ring (by rw [e, e2]; simp)
  have hj : (Spec.writes a).length < (Spec.writes l1).length := by rw [e2, writes_append]; simp [Spec.writes]
  generalize hn : (Spec.writes l1).length = n at *
  generalize hjj : (Spec.writes a).length = j at *
  -- the page was written a round before at the latest
  have hround : j + c.N ≤ n := by
    have : (n - j) % c.N = 0 := Nat.sub_mod_eq_zero_of_mod_eq (by rw [← r1, ← r2])
    have := Nat.le_of_dvd (by omega) (Nat.dvd_of_mod_eq_zero this)
    omega
  have e4 := Nat.div_add_mod n c.B
  have e5 := Nat.mod_lt n hB
  have hBN := Nat.le_of_dvd hN hd
  generalize hs : c.B * (n / c.B) = s at *
  have hsB : c.B ∣ s := ⟨_, hs.symm⟩
  have hsN : c.N ≤ s := by
    obtain ⟨q, hq⟩ := hd
    rw [hq, ← hs]
    apply Nat.mul_le_mul_left
    rw [Nat.le_div_iff_mul_le hB, Nat.mul_comm, ← hq]; omega
  have hlen : n < (Spec.writes log).length := by rw [e, writes_append, List.length_append, hn]; simp [Spec.writes]
  obtain ⟨u, v, h1, h2⟩ := h.erased s hsB hsN (by omega)
    (fun g => hx ⟨s, g.1, g.2.1, Nat.mod_eq_zero_of_dvd hsB, g.2.2, by omega, by omega⟩)
  -- the erase comes before this write
  have h3 : ∃ t, l1 = u ++ Ev.erase (s % c.N) (s % c.N + c.B) :: t := by
    rw [e] at h1
    rcases List.append_eq_append_iff.mp h1 with ⟨t, g1, g2⟩ | ⟨t, g1, g2⟩
    · cases t with
      | nil => simp at g2
      | cons w t =>
        rw [List.cons_append, List.cons.injEq] at g2
        rw [g1, ← g2.1, writes_append, List.length_append, hn] at h2
        simp [Spec.writes] at h2
        omega
    · cases t with
      | nil => simp at g2
      | cons w t =>
        rw [List.cons_append, List.cons.injEq] at g2
        exact ⟨t, by rw [g1, ← g2.1]⟩
  obtain ⟨t, h3⟩ := h3
  -- and after the earlier one
  have h4 : Ev.erase (s % c.N) (s % c.N + c.B) ∈ b := by
    rw [e2] at h3
    rcases List.append_eq_append_iff.mp h3 with ⟨t', g1, g2⟩ | ⟨t', g1, g2⟩
    · cases t' with
      | nil => simp at g2
      | cons w t' =>
        rw [List.cons_append, List.cons.injEq] at g2
        rw [g2.2]; simp
    · have : (Spec.writes u).length ≤ (Spec.writes a).length := by rw [g1, writes_append, List.length_append]; omega
      omega
  refine ⟨_, _, h4, ?_⟩
  -- it covers the page
  obtain ⟨q, hq⟩ := hd
  have hsm : s % c.N = c.B * (n / c.B % q) := by rw [← hs, hq, Nat.mul_mod_mul_left]
  have hnm : n % c.N = c.B * (n / c.B % q) + n % c.B := by
    rw [hq, Nat.mod_mul]; omega
  rw [r1, hnm, hsm]
  omega

/-! ### Wear -/

/-- How often a page should have been erased when the file has `n` pages. -/
def due (c : Cfg) (i n : Nat) : Nat := (List.range (n - c.N)).countP fun l => decide (l % c.N = c.B * (i / c.B))

/-- 1 if page `i` is in the block of the next page. -/
def inBlock (c : Cfg) (i n : Nat) : Nat := if n % c.N = c.B * (i / c.B) then 1 else 0

theorem due_succ {i n : Nat} (h : c.N ≤ n) : due c i (n + 1) = due c i n + inBlock c i n := by
  unfold due inBlock
  rw [show n + 1 - c.N = (n - c.N) + 1 by omega, List.range_succ, List.countP_append]
  have : (n - c.N) % c.N = n % c.N := by
    conv_rhs => rw [show n = (n - c.N) + c.N by omega, Nat.add_mod_right]
  simp [List.countP_cons, this]

theorem due_small {i n : Nat} (h : n < c.N) : due c i (n + 1) = due c i n := by
  unfold due
  rw [show n + 1 - c.N = 0 by omega, show n - c.N = 0 by omega]

theorem inBlock_zero (hd : c.B ∣ c.N) {i n : Nat} (h : n % c.B ≠ 0) : inBlock c i n = 0 := by
  unfold inBlock
  rw [if_neg]
  intro e
  apply h
  have : n % c.N % c.B = 0 := by rw [e]; simp
  rwa [Nat.mod_mod_of_dvd n hd] at this

theorem inBlock_le (i n : Nat) : inBlock c i n ≤ 1 := by unfold inBlock; split_ifs <;> omega

theorem inBlock_other {i j : Nat} (hB : 0 < c.B) (hij : i / c.B ≠ j / c.B) (n : Nat) : inBlock c i n + inBlock c j n ≤ 1 := by
  unfold inBlock
  split_ifs with h1 h2
  · rw [h1] at h2
    exact absurd (Nat.eq_of_mul_eq_mul_left hB h2) hij
  all_goals omega

theorem erased_block (hB : 0 < c.B) (hd : c.B ∣ c.N) {i n : Nat} (h : n % c.B = 0) :
    Spec.timesErased [Ev.erase (n % c.N) (n % c.N + c.B)] i = inBlock c i n := by
  have h1 : n % c.N % c.B = 0 := by rw [Nat.mod_mod_of_dvd n hd]; exact h
  obtain ⟨q, hq⟩ := Nat.dvd_of_mod_eq_zero h1
  unfold Spec.timesErased inBlock
  simp only [List.countP_cons, List.countP_nil, Nat.zero_add, decide_eq_true_eq]
  rw [hq]
  refine if_congr ?_ rfl rfl
  have e4 := Nat.div_add_mod i c.B
  have e5 := Nat.mod_lt i hB
  constructor
  · rintro ⟨a1, a2⟩
    have : i / c.B = q := by rw [Nat.div_eq_iff hB, Nat.mul_comm]; exact ⟨a1, by omega⟩
    rw [this]
  · intro e
    omega

/-- 1 if the journal ends with an erase of page `i`. -/
def endErase (log : List Ev) (i : Nat) : Nat := match log.getLast? with
  | some e => Spec.timesErased [e] i
  | none => 0

/-- The bookkeeping of two pages in different blocks. -/
structure Pair (c : Cfg) (i j : Nat) (R : List Nat) (log : List Ev) : Prop where
  head : ∀ n, R.head? = some n → n ≤ (Spec.writes log).length
  last : ∀ k, ∀ a b, (log.take k).getLast? = some (Ev.erase a b) →
    a = (Spec.writes (log.take k)).length % c.N ∧ b = a + c.B ∧ (Spec.writes (log.take k)).length % c.B = 0
  before : ∀ k, Spec.timesErased (log.take k) i + due c j (Spec.writes (log.take k)).length ≤
    Spec.timesErased (log.take k) j + due c i (Spec.writes (log.take k)).length + R.length + endErase (log.take k) i
  now : ∀ pend, (pend ≠ 0 → Skips c R (Spec.writes log).length ∧ pend ≤ inBlock c j (Spec.writes log).length) →
    Spec.timesErased log i + due c j (Spec.writes log).length + pend ≤
      Spec.timesErased log j + due c i (Spec.writes log).length + R.length

theorem timesErased_write (ph : Nat) (p : Page) (i : Nat) : Spec.timesErased [Ev.write ph p] i = 0 := rfl

theorem Worn.pair (hB : 0 < c.B) (hd : c.B ∣ c.N) {i j : Nat} (hij : i / c.B ≠ j / c.B) (h : Worn c R log) : Pair c i j R log := by
  induction h with
  | nil =>
    refine ⟨by simp, by simp, ?_, ?_⟩
    · intro k; simp [Spec.timesErased, Spec.writes, due]
    · intro pend hp
      by_cases h : pend = 0
      · subst h; simp [Spec.timesErased, Spec.writes, due]
      · have := (hp h).1.1; simp at this
  | @renew R log h p h1 h2 ih =>
    have hnow := ih.now 0 (by simp)
    generalize hn : (Spec.writes log).length = n at *
    have ee := fun i => erased_block (c := c) hB hd (i := i) h2
    have w1 : (Spec.writes (log ++ [Ev.erase (n % c.N) (n % c.N + c.B)])).length = n := by
      rw [writes_append, List.length_append, hn]; rfl
    have w2 : (Spec.writes (log ++ [Ev.erase (n % c.N) (n % c.N + c.B)] ++ [Ev.write (n % c.N) p])).length = n + 1 := by
      rw [writes_append, List.length_append, w1]; rfl
    have d1 := due_succ (c := c) (i := i) h1
    have d2 := due_succ (c := c) (i := j) h1
    have t1 : ∀ i, Spec.timesErased (log ++ [Ev.erase (n % c.N) (n % c.N + c.B)]) i = Spec.timesErased log i + inBlock c i n := by
      intro i; rw [timesErased_append, ee]
    have t2 : ∀ i, Spec.timesErased (log ++ [Ev.erase (n % c.N) (n % c.N + c.B)] ++ [Ev.write (n % c.N) p]) i = Spec.timesErased log i + inBlock c i n := by
      intro i; rw [timesErased_append, t1, timesErased_write]; rfl
    have now' : Spec.timesErased (log ++ [Ev.erase (n % c.N) (n % c.N + c.B)] ++ [Ev.write (n % c.N) p]) i + due c j (n + 1) ≤
        Spec.timesErased (log ++ [Ev.erase (n % c.N) (n % c.N + c.B)] ++ [Ev.write (n % c.N) p]) j + due c i (n + 1) + R.length := by
      rw [t2, t2]; omega
    refine ⟨?_, ?_, ?_, ?_⟩
    · rw [w2]; intro m hm; have := ih.head m hm; omega
    · intro k
      rw [take_snoc]
      split_ifs with g
      · rw [take_snoc]
        split_ifs with g
        · exact ih.last k
        · intro a b hab
          rw [List.getLast?_concat, Option.some.injEq, Ev.erase.injEq] at hab
          rw [w1]
          exact ⟨hab.1.symm, by rw [← hab.1, ← hab.2], h2⟩
      · intro a b hab
        simp at hab
    · intro k
      rw [take_snoc]
      split_ifs with g
      · rw [take_snoc]
        split_ifs with g
        · exact ih.before k
        · rw [w1, t1, t1]
          have : endErase (log ++ [Ev.erase (n % c.N) (n % c.N + c.B)]) i = inBlock c i n := by
            unfold endErase; rw [List.getLast?_concat]; exact ee i
          omega
      · rw [w2]; omega
    · rw [w2]
      intro pend hp
      by_cases h0 : pend = 0
      · omega
      · have := ih.head _ (hp h0).1.1; omega
  | @plain R log h p h1 ih =>
    have w2 : (Spec.writes (log ++ [Ev.write ((Spec.writes log).length % c.N) p])).length = (Spec.writes log).length + 1 := by
      rw [writes_append, List.length_append]; rfl
    have t2 : ∀ i, Spec.timesErased (log ++ [Ev.write ((Spec.writes log).length % c.N) p]) i = Spec.timesErased log i := by
      intro i; rw [timesErased_append, timesErased_write]; rfl
    have now' : Spec.timesErased log i + due c j ((Spec.writes log).length + 1) ≤
        Spec.timesErased log j + due c i ((Spec.writes log).length + 1) + R.length := by
      have hnow := ih.now 0 (by simp)
      by_cases g : (Spec.writes log).length < c.N
      · rw [due_small g, due_small g]; exact hnow
      · rw [due_succ (by omega), due_succ (by omega)]
        by_cases g2 : (Spec.writes log).length % c.B = 0
        · have sk := h1 (by omega) g2
          have := ih.now (inBlock c j (Spec.writes log).length) (fun _ => ⟨sk, le_refl _⟩)
          omega
        · rw [inBlock_zero hd g2, inBlock_zero hd g2]; exact hnow
    refine ⟨?_, ?_, ?_, ?_⟩
    · rw [w2]; intro m hm; have := ih.head m hm; omega
    · intro k
      rw [take_snoc]
      split_ifs with g
      · exact ih.last k
      · intro a b hab
        simp at hab
    · intro k
      rw [take_snoc]
      split_ifs with g
      · exact ih.before k
      · rw [w2, t2, t2]; omega
    · rw [w2, t2, t2]
      intro pend hp
      by_cases h0 : pend = 0
      · omega
      · have := ih.head _ (hp h0).1.1; omega
  | @cut R log h k ih =>
    refine ⟨?_, ?_, ?_, ?_⟩
    · intro n hn
      rw [List.head?_cons, Option.some.injEq] at hn
      omega
    · intro k'
      rw [List.take_take]
      exact ih.last _
    · intro k'
      rw [List.take_take]
      have := ih.before (min k' k)
      rw [List.length_cons]
      omega
    · intro pend hp
      have hb := ih.before k
      rw [List.length_cons]
      have key : endErase (log.take k) i + pend ≤ 1 := by
        have hpend : pend ≤ inBlock c j (Spec.writes (log.take k)).length := by
          by_cases h0 : pend = 0
          · omega
          · exact (hp h0).2
        have ho := inBlock_other hB hij (Spec.writes (log.take k)).length
        have : endErase (log.take k) i ≤ inBlock c i (Spec.writes (log.take k)).length := by
          unfold endErase
          split
          · rename_i e he
            cases e with
            | write ph p => rw [timesErased_write]; omega
            | erase a b =>
              obtain ⟨g1, g2, g3⟩ := ih.last k a b he
              rw [g2, g1, erased_block hB hd g3]
          · omega
        omega
      omega

/-- Pages of one block are erased together. -/
theorem Worn.same (hB : 0 < c.B) (hd : c.B ∣ c.N) {i j : Nat} (hij : i / c.B = j / c.B) (h : Worn c R log) :
    ∀ k, Spec.timesErased (log.take k) i = Spec.timesErased (log.take k) j := by
  have hib : ∀ n, inBlock c i n = inBlock c j n := by intro n; unfold inBlock; rw [hij]
  induction h with
  | nil => intro k; rw [List.take_nil]; rfl
  | @renew R log h p h1 h2 ih =>
    intro k
    rw [take_snoc]
    split_ifs
    · rw [take_snoc]
      split_ifs
      · exact ih k
      · have := ih log.length
        rw [List.take_length] at this
        rw [timesErased_append, timesErased_append, erased_block hB hd h2, erased_block hB hd h2, this, hib]
    · have := ih log.length
      rw [List.take_length] at this
      rw [timesErased_append, timesErased_append, timesErased_append, timesErased_append, erased_block hB hd h2,
        erased_block hB hd h2, this, hib]
      rfl
  | @plain R log h p h1 ih =>
    intro k
    rw [take_snoc]
    split_ifs
    · exact ih k
    · have := ih log.length
      rw [List.take_length] at this
      rw [timesErased_append, timesErased_append, this]
      rfl
  | @cut R log h k ih =>
    intro k'
    rw [List.take_take]
    exact ih _

theorem Worn.even (hB : 0 < c.B) (hd : c.B ∣ c.N) (hN : 0 < c.N) (h : Worn c R log) {i j : Nat} (hi : i < c.N) (hj : j < c.N) :
    Spec.timesErased log i ≤ Spec.timesErased log j + 1 + R.length := by
  by_cases hij : i / c.B = j / c.B
  · have := h.same hB hd hij log.length
    rw [List.take_length] at this
    omega
  · have h1 := (h.pair hB hd hij).now 0 (by simp)
    have hlt : ∀ i, i < c.N → c.B * (i / c.B) < c.N := fun i hi => by
      have := Nat.div_add_mod i c.B; omega
    have h2 := even_mod c.N ((Spec.writes log).length - c.N) _ _ (hlt i hi) (hlt j hj)
    simp only at h2
    unfold due at h1
    omega

end

end EDB
