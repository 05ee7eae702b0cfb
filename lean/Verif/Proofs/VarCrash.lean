import Verif.Model.VarCrash
import Verif.Spec.VarFile
import Verif.Proofs.VarPhase

/-! Helper lemmas: power failures of a table with variable data. -/

namespace EDB

open Spec (Log VLog VOp VOut)

/-- Number in the header of a variable page. -/
def vid (p : Page) : Nat := leNat (rd p 0 4)

/-- Page writes to successive places. -/
def writesAt (n : Nat) : List Page → List Ev
  | [] => []
  | p :: ps => .write n p :: writesAt (n + 1) ps

/-- The file with pages replaced from page `n` on. -/
def placed (f : Nat → Option Page) (n : Nat) (ps : List Page) (ph : Nat) : Option Page :=
  if n ≤ ph ∧ ph < n + ps.length then ps[ph - n]? else f ph

/-- What happens to the variable data file between two moments: as long as no page is reclaimed, pages are added at the
end, each with its number. -/
structure Grow (c : Cfg) (v v' : Var) : Prop where
  mono : v.next + v.avail ≤ v'.next + v'.avail
  grow : v'.next + v'.avail = v.next + v.avail → v.next + v.avail = c.numVar →
    ∃ ps, v'.next = v.next + ps.length ∧ v'.dev.log = v.dev.log ++ writesAt v.next ps ∧ v'.dev.file = placed v.dev.file v.next ps ∧
      ∀ i (hi : i < ps.length), vid ps[i] = (v.next + i) % 2 ^ 32

theorem writesAt_append (n : Nat) (ps qs : List Page) : writesAt n (ps ++ qs) = writesAt n ps ++ writesAt (n + ps.length) qs := by
  induction ps generalizing n with
  | nil => rfl
  | cons p ps ih =>
    simp only [List.cons_append, writesAt, ih, List.length_cons]
    rw [show n + 1 + ps.length = n + (ps.length + 1) by omega]

theorem writesAt_length (n : Nat) (ps : List Page) : (writesAt n ps).length = ps.length := by
  induction ps generalizing n with
  | nil => rfl
  | cons p ps ih => simp only [writesAt, List.length_cons, ih]

theorem writesAt_take (n : Nat) (ps : List Page) (j : Nat) : (writesAt n ps).take j = writesAt n (ps.take j) := by
  induction ps generalizing n j with
  | nil => simp [writesAt]
  | cons p ps ih =>
    cases j with
    | zero => rfl
    | succ j => simp only [writesAt, List.take_succ_cons, ih]

theorem placed_append (f : Nat → Option Page) (n : Nat) (ps qs : List Page) :
    placed f n (ps ++ qs) = placed (placed f n ps) (n + ps.length) qs := by
  funext ph
  unfold placed
  rw [List.length_append]
  by_cases h1 : n + ps.length ≤ ph ∧ ph < n + ps.length + qs.length
  · rw [if_pos h1, if_pos (by omega), List.getElem?_append_right (by omega)]
    congr 1
    omega
  · rw [if_neg h1]
    by_cases h2 : n ≤ ph ∧ ph < n + ps.length
    · rw [if_pos h2, if_pos (by omega), List.getElem?_append_left (by omega)]
    · rw [if_neg h2, if_neg (by omega)]

theorem writesAt_apply (fx : Option Page → Option Page) (n : Nat) (ps : List Page) (f : Nat → Option Page) :
    (writesAt n ps).foldl (Spec.applyEv fx) f = placed f n ps := by
  induction ps generalizing n f with
  | nil => funext ph; simp [writesAt, placed]
  | cons p ps ih =>
    rw [writesAt, List.foldl_cons, ih]
    funext ph
    unfold placed
    simp only [Spec.applyEv, List.length_cons]
    by_cases h1 : n + 1 ≤ ph ∧ ph < n + 1 + ps.length
    · rw [if_pos h1, if_pos (by omega)]
      obtain ⟨k, rfl⟩ : ∃ k, ph = n + 1 + k := ⟨ph - (n + 1), by omega⟩
      rw [show n + 1 + k - (n + 1) = k by omega, show n + 1 + k - n = k + 1 by omega, List.getElem?_cons_succ]
    · rw [if_neg h1]
      by_cases h2 : ph = n
      · subst h2
        rw [if_pos rfl, if_pos (by omega)]
        simp
      · rw [if_neg h2, if_neg (by omega)]

section
variable {c : Cfg} {lo K : Nat} {E : Mode} {d : Data} {v u w : Var} {l : VLog} {g : Gh}

theorem Grow.refl (c : Cfg) (v : Var) : Grow c v v :=
  ⟨le_refl _, fun _ _ => ⟨[], rfl, by simp [writesAt], by funext ph; simp [placed], by simp⟩⟩

theorem Grow.trans (h1 : Grow c u v) (h2 : Grow c v w) : Grow c u w := by
  refine ⟨le_trans h1.mono h2.mono, ?_⟩
  intro e1 e2
  have m1 := h1.mono
  have m2 := h2.mono
  obtain ⟨ps, a1, a2, a3, a4⟩ := h1.grow (by omega) e2
  obtain ⟨qs, b1, b2, b3, b4⟩ := h2.grow (by omega) (by omega)
  refine ⟨ps ++ qs, by rw [List.length_append]; omega, ?_, ?_, ?_⟩
  · rw [b2, a2, List.append_assoc, writesAt_append, a1]
  · rw [b3, a3, placed_append, a1]
  · intro i hi
    rcases Nat.lt_or_ge i ps.length with h | h
    · rw [List.getElem_append_left h]; exact a4 i h
    · rw [List.getElem_append_right h, b4 _ (by rw [List.length_append] at hi; omega)]
      congr 1
      omega

theorem Grow.congr (h : Grow c u v) {v' : Var} (e1 : v'.dev = v.dev) (e4 : v'.next = v.next) (e5 : v'.avail = v.avail) : Grow c u v' := by
  refine ⟨by rw [e4, e5]; exact h.mono, ?_⟩
  rw [e1, e4, e5]; exact h.grow

theorem Grow.congrL (h : Grow c u v) {u' : Var} (e1 : u'.dev = u.dev) (e4 : u'.next = u.next) (e5 : u'.avail = u.avail) : Grow c u' v := by
  refine ⟨by rw [e4, e5]; exact h.mono, ?_⟩
  rw [e1, e4, e5]; exact h.grow

theorem vid_out (v : Var) : vid (vout v) = v.next % 2 ^ 32 := by
  unfold vid vout
  exact pageId_wr _ _

theorem Grow.write (hv : c.VFile) (v : Var) : Grow c v (writeVar c v).1 := by
  have hB := hv.B0
  unfold writeVar
  simp only
  by_cases ha : v.avail = 0
  · rw [if_pos ha]
    have hok : (v.dev.erase c (v.next % c.numVar) (v.next % c.numVar + c.B)).2 = true := by
      simp [Dev.erase, hv.io]
    simp only [hok, if_true]
    generalize hr : readVar { v with dev := (v.dev.erase c (v.next % c.numVar) (v.next % c.numVar + c.B)).1, avail := v.avail + c.B }
      ((v.next % c.numVar + c.B - 1) % c.numVar) = r
    have h1 : r.1.next = v.next ∧ r.1.avail = v.avail + c.B := by
      unfold readVar at hr
      split at hr
      · rw [← hr]; exact ⟨rfl, rfl⟩
      · split at hr <;> (rw [← hr]; exact ⟨rfl, rfl⟩)
    split_ifs
    · rw [storeVar_eq hv]
      exact ⟨by simp only; omega, fun e => by simp only at e; omega⟩
    · exact ⟨by simp only; omega, fun e => by simp only at e; omega⟩
  · rw [if_neg ha, storeVar_eq hv]
    refine ⟨by simp only; omega, ?_⟩
    intro _ h2
    have hmod : v.next % c.numVar = v.next := Nat.mod_eq_of_lt (by omega)
    refine ⟨[vout v], rfl, by simp only [hmod, writesAt], ?_, ?_⟩
    · funext ph
      simp only [hmod, placed, List.length_singleton]
      by_cases h : ph = v.next
      · subst h; simp
      · rw [if_neg h, if_neg (by omega)]
    · intro i hi
      rw [List.length_singleton] at hi
      have : i = 0 := by omega
      subst this
      simp only [List.getElem_cons_zero, Nat.add_zero]
      exact vid_out v

theorem Grow.roll (hv : c.VFile) (v : Var) (key : Nat) : Grow c v (rollVar c key v) := by
  unfold rollVar
  split_ifs
  · exact (Grow.write hv v).congr rfl rfl rfl
  · exact Grow.refl c v

theorem Grow.chunks (hv : c.VFile) (key : Nat) : ∀ (f : Nat) (v : Var) (bs : List Byte) (v' : Var),
    putChunks c key f v bs = .ok v' → Grow c v v' := by
  intro f
  induction f with
  | zero => intro v bs v' h; simp [putChunks] at h
  | succ f ih =>
    intro v bs v' e
    unfold putChunks at e
    split_ifs at e
    · cases e; exact Grow.refl c _
    · have e' := ih _ _ _ e
      refine Grow.trans (Grow.congrL (Grow.roll hv _ key) ?_ ?_ ?_) e' <;> rfl

theorem Grow.storeBytes (hv : c.VFile) {key : Nat} {bs : List Byte} {v' : Var}
    (e : storeBytes c v key bs = .ok v') : Grow c v v' := by
  unfold EDB.storeBytes at e
  simp only at e
  split_ifs at e
  all_goals
    have e' := Grow.chunks hv key _ _ _ _ e
    refine Grow.trans (Grow.congrL (Grow.roll hv _ key) ?_ ?_ ?_) e' <;> rfl

theorem Grow.pre (hv : c.VFile) (v : Var) (d : Data) : Grow c v (preVar c d v) := by
  unfold preVar
  split_ifs
  · exact (Grow.write hv v).congr rfl rfl rfl
  · exact Grow.refl c v

theorem Grow.flush (hv : c.VFile) (v : Var) : Grow c v (flushVar c v).1 := by
  have hw := Grow.write hv v
  unfold flushVar
  split_ifs
  · exact Grow.refl c v
  · generalize writeVar c v = r at hw
    obtain ⟨v1, o⟩ := r
    cases o with
    | none => exact hw
    | some _ => exact hw.congr rfl rfl rfl

theorem Grow.read (h : Grow c u v) (ph : Nat) : Grow c u (readVar v ph).1 := by
  unfold readVar
  split
  · exact h
  · split
    · exact h
    · exact h.congr rfl rfl rfl

theorem Grow.setup (h : Grow c u v) {key i : Nat} {r : Var × Int × Option Stream}
    (e : setupStream c d v key i = .ok r) : Grow c u r.1 := by
  unfold setupStream at e
  simp only at e
  split_ifs at e
  · cases e; exact h
  · cases e; exact h
  · cases e; exact h.read _
  · cases e; exact h.read _
  · cases e; exact h.read _

theorem Grow.loop (len : Nat) : ∀ (f : Nat) (v : Var) (st : Stream) (pg : Nat) (acc : List Byte) (r : Var × Stream × List Byte),
    Grow c u v → streamLoop c len f v st pg acc = .ok r → Grow c u r.1 := by
  intro f
  induction f with
  | zero => intro v st pg acc r _ e; simp [streamLoop] at e
  | succ f ih =>
    intro v st pg acc r h e
    unfold streamLoop at e
    simp only at e
    split_ifs at e
    · exact ih _ _ _ _ _ (h.read _) e
    · cases e; exact h.read _
    · exact ih _ _ _ _ _ h e
    · cases e; exact h

theorem Grow.readAll (h : Grow c u v) {st : Option Stream} {r : Var × Option (List Byte)} (e : readAll c v st = .ok r) : Grow c u r.1 := by
  cases st with
  | none => simp only [EDB.readAll, Res.ok.injEq] at e; rw [← e]; exact h
  | some st =>
    simp only [EDB.readAll] at e
    obtain ⟨⟨v1, s1, b1⟩, e1, e2⟩ := Res.bind_eq_ok e
    simp only [Res.ok.injEq] at e2
    rw [← e2]
    unfold streamRead at e1
    simp only at e1
    split_ifs at e1
    · exact Grow.loop _ _ _ _ _ _ _ (h.read _) e1
    · simp only [Res.ok.injEq, Prod.mk.injEq] at e1
      rw [← e1.1]; exact h.read _

theorem Grow.getVar (hv : c.VFile) {key : Nat} {r : Data × Var × Int × Option (List Byte) × Option Stream}
    (e : getVar c d v key = .ok r) : Grow c v r.2.1 := by
  simp only [EDB.getVar, hv.vdata, if_true] at e
  obtain ⟨⟨r1, out⟩, -, e2⟩ := Res.bind_eq_ok e
  simp only at e2
  split_ifs at e2
  · obtain ⟨⟨v1, s1, st1⟩, e3, e4⟩ := Res.bind_eq_ok e2
    simp only [Res.ok.injEq] at e4
    rw [← e4]
    exact (Grow.flush hv v).setup e3
  · obtain ⟨⟨d1, r2, out2⟩, -, e4⟩ := Res.bind_eq_ok e2
    simp only at e4
    split_ifs at e4
    · obtain ⟨i, -, e6⟩ := Res.bind_eq_ok e4
      cases i with
      | none => simp at e6
      | some i =>
        simp only at e6
        split_ifs at e6
        obtain ⟨⟨v1, s1, st1⟩, e7, e8⟩ := Res.bind_eq_ok e6
        simp only [Res.ok.injEq] at e8
        rw [← e8]
        exact (Grow.refl c v).setup e7
    · simp only [Res.ok.injEq] at e4
      rw [← e4]
      exact Grow.refl c v

theorem Grow.stepGetVar (hv : c.VFile) {x x' : Idx} {key : Nat} {d' : Data} {v' : Var} {o : VOut}
    (e : stepV c d x v (.getVar key) = .ok (d', x', v', o)) : Grow c v v' := by
  simp only [stepV] at e
  obtain ⟨⟨d1, v1, r1, o1, s1⟩, e1, e2⟩ := Res.bind_eq_ok e
  obtain ⟨⟨v2, b2⟩, e3, e4⟩ := Res.bind_eq_ok e2
  simp only [Res.ok.injEq, Prod.mk.injEq] at e4
  rw [← e4.2.2.1]
  exact (Grow.getVar hv e1).readAll e3

/-- The parts of `embedDBPutVar`. -/
theorem put_parts (hv : c.VFile) (hrlc : c.rlc = false) {x x' : Idx} {key : Nat} {data : List Byte}
    {b : Option (List Byte)} {d' : Data} {v' : Var} {o : VOut} (e : stepV c d x v (.put key data b) = .ok (d', x', v', o)) :
    Grow c (preVar c d v) v' ∧ ∃ r w, putX c d x key data (varLoc c { preVar c d v with hasVar := b.isSome }) = .ok (d', x', r, w) ∧ o = .code r := by
  simp only [stepV, putVar, hv.vdata, if_true, hrlc, Bool.false_eq_true, if_false] at e
  have hg := Grow.refl c (preVar c d v)
  cases b with
  | none =>
    simp only at e
    obtain ⟨⟨d1, x1, v1, r1⟩, e1, e2⟩ := Res.bind_eq_ok e
    obtain ⟨⟨d2, x2, r2, w2⟩, e3, e4⟩ := Res.bind_eq_ok e1
    simp only [Res.ok.injEq, Prod.mk.injEq] at e2 e4
    obtain ⟨rfl, rfl, rfl, rfl⟩ := e2
    obtain ⟨rfl, rfl, rfl, rfl⟩ := e4
    exact ⟨hg.congr rfl rfl rfl, _, _, e3, rfl⟩
  | some bs =>
    simp only at e
    obtain ⟨⟨d1, x1, v1, r1⟩, e1, e2⟩ := Res.bind_eq_ok e
    obtain ⟨⟨d2, x2, r2, w2⟩, e3, e4⟩ := Res.bind_eq_ok e1
    simp only [Res.ok.injEq, Prod.mk.injEq] at e2
    obtain ⟨rfl, rfl, rfl, rfl⟩ := e2
    simp only at e4
    by_cases hr : r2 ≠ 0
    · rw [if_pos hr] at e4
      simp only [Res.ok.injEq, Prod.mk.injEq] at e4
      obtain ⟨rfl, rfl, rfl, rfl⟩ := e4
      exact ⟨hg.congr rfl rfl rfl, _, _, e3, rfl⟩
    · rw [if_neg hr] at e4
      obtain ⟨v2, e5, e6⟩ := Res.bind_eq_ok e4
      simp only [Res.ok.injEq, Prod.mk.injEq] at e6
      obtain ⟨rfl, rfl, rfl, rfl⟩ := e6
      push Not at hr
      subst hr
      exact ⟨(Grow.storeBytes hv e5).congrL rfl rfl rfl, _, _, e3, rfl⟩

/-- A cut of operations that only add pages leaves the older pages alone. -/
theorem cut_keeps (h : Grow c u v) (h1 : v.next + v.avail = u.next + u.avail) (h2 : u.next + u.avail = c.numVar) (j : Nat) {ph : Nat}
    (hp : ph < u.next) : cutBetween c u.dev v.dev j ph = u.dev.file ph := by
  obtain ⟨ps, -, t2, -⟩ := h.grow h1 h2
  unfold cutBetween between
  rw [t2, List.drop_left, writesAt_take, writesAt_apply]
  unfold placed
  rw [if_neg (by omega)]

/-! ### Reading the data off the file -/

theorem leValue_eq (bs : List Byte) : Spec.leValue bs = leNat bs := by
  induction bs with
  | nil => rfl
  | cons b bs ih => simp only [Spec.leValue, List.foldr_cons] at ih ⊢; rw [ih]; rfl

theorem At.next (h : c.VFile) {a q : Nat} (A : At c a q) : At c (Spec.nextAddr c.pageSize c.vhdr a) (q + 1) := by
  obtain ⟨h1, h2⟩ := A
  have hps := h.ps
  have hcap := h.cap4
  have hq := Nat.mod_lt q (show 0 < c.vcap by omega)
  have hdq : q / c.vcap * c.vcap + q % c.vcap = q := Nat.div_add_mod' q c.vcap
  have hda : a / c.pageSize * c.pageSize + a % c.pageSize = a := Nat.div_add_mod' a c.pageSize
  unfold Spec.nextAddr
  by_cases hb : q % c.vcap + 1 = c.vcap
  · have e1 : a + 1 = (a / c.pageSize + 1) * c.pageSize := by rw [Nat.add_mul, Nat.one_mul]; omega
    have e2 : q + 1 = (q / c.vcap + 1) * c.vcap := by rw [Nat.add_mul, Nat.one_mul]; omega
    rw [if_pos (by rw [e1, Nat.mul_mod_left])]
    constructor
    · rw [e1, e2, Nat.mul_mod_left, Nat.mul_comm, Nat.mul_add_mod, Nat.mod_eq_of_lt (by omega)]; rfl
    · rw [e1, e2, Nat.mul_div_cancel _ (by omega), Nat.mul_comm, Nat.mul_add_div (by omega), Nat.div_eq_of_lt (show c.vhdr < c.pageSize by omega),
        Nat.add_zero, Nat.add_mod, h2, ← Nat.add_mod]
  · have e1 : (a + 1) % c.pageSize = c.vhdr + q % c.vcap + 1 := by
      conv_lhs => rw [← hda, Nat.add_assoc, Nat.mul_comm, Nat.mul_add_mod]
      rw [h1, Nat.mod_eq_of_lt (by omega)]
    have e2 : (a + 1) / c.pageSize = a / c.pageSize := by
      conv_lhs => rw [← hda, Nat.add_assoc, Nat.mul_comm, Nat.mul_add_div (by omega)]
      rw [h1, Nat.div_eq_of_lt (show c.vhdr + q % c.vcap + 1 < c.pageSize by omega)]; rfl
    have e3 : (q + 1) % c.vcap = q % c.vcap + 1 := by
      conv_lhs => rw [← hdq, Nat.add_assoc, Nat.mul_comm, Nat.mul_add_mod]
      exact Nat.mod_eq_of_lt (by omega)
    have e4 : (q + 1) / c.vcap = q / c.vcap := by
      conv_lhs => rw [← hdq, Nat.add_assoc, Nat.mul_comm, Nat.mul_add_div (by omega)]
      rw [Nat.div_eq_of_lt (show q % c.vcap + 1 < c.vcap by omega)]; rfl
    rw [if_neg (by omega)]
    exact ⟨by rw [e1, e3]; omega, by rw [e2, e4, h2]⟩

theorem bytesFrom_ok (h : c.VFile) {G : Nat → Option Page} {s : List Byte} : ∀ (k a q : Nat), At c a q →
    (∀ j, q / c.vcap ≤ j → j * c.vcap < q + k → ∃ p, G (j % c.numVar) = some p ∧ ∀ o, o < c.vcap → p (c.vhdr + o) = s.getD (j * c.vcap + o) 0) →
    ∃ a', Spec.bytesFrom c.pageSize c.vhdr c.numVar G k a = some (slice s q k, a') ∧ At c a' (q + k) := by
  intro k
  have hcap := h.cap4
  induction k with
  | zero => intro a q A _; exact ⟨a, rfl, A⟩
  | succ k ih =>
    intro a q A H
    obtain ⟨a', b1, b2⟩ := ih _ _ (A.next h) (fun j j1 j2 => H j (le_trans (Nat.div_le_div_right (by omega)) j1) (by omega))
    have hq := Nat.mod_lt q (show 0 < c.vcap by omega)
    have hdq : q / c.vcap * c.vcap + q % c.vcap = q := Nat.div_add_mod' q c.vcap
    obtain ⟨p, p1, p2⟩ := H (q / c.vcap) (le_refl _) (by omega)
    refine ⟨a', ?_, by rw [show q + (k + 1) = q + 1 + k by omega]; exact b2⟩
    unfold Spec.bytesFrom
    rw [b1]
    unfold Spec.byteAt
    rw [A.2, p1]
    simp only [Option.map_some]
    have hs : slice s q (k + 1) = slice s q 1 ++ slice s (q + 1) k := by rw [slice_append, Nat.add_comm]
    rw [A.1, p2 _ hq, hdq, hs]
    rfl

/-- The data of an entry whose pages are in the file can be read off the file. -/
theorem fetch_of (h : c.VFile) {s : List Byte} {e : Ent} (eo : EntOk c s e) {G : Nat → Option Page}
    (H : ∀ j, e.a / c.vcap ≤ j → j * c.vcap < e.fin → ∃ p, G (j % c.numVar) = some p ∧
      ∀ o, o < c.vcap → p (c.vhdr + o) = s.getD (j * c.vcap + o) 0) :
    Spec.fetch c.pageSize c.vhdr c.numVar G (vaddr c e.a % (c.numVar * c.pageSize)) = some e.bs := by
  unfold Ent.fin at H
  have A : At c (vaddr c e.a % (c.numVar * c.pageSize)) e.a := by
    apply At.mod
    · exact vaddr_mod h e.a
    · rw [vaddr_div h]
  obtain ⟨a1, b1, b2⟩ := bytesFrom_ok h (G := G) (s := s) 4 _ _ A (fun j j1 j2 => H j j1 (by omega))
  obtain ⟨a2, b3, -⟩ := bytesFrom_ok h (G := G) (s := s) e.bs.length _ _ b2
    (fun j j1 j2 => H j (le_trans (Nat.div_le_div_right (by omega)) j1) (by omega))
  unfold Spec.fetch
  rw [b1]
  simp only
  rw [leValue_eq, eo.length, b3, eo.bytes]
  rfl

/-- The data of an entry below the pages written can be read off the file. -/
theorem fetch_ok (h : c.VFile) (I : VInv c E lo K g v) (hes : EntsOk c g) {e : Ent} (he : e ∈ g.es) (hmin : g.vmin = 0)
    (hfin : e.fin ≤ v.next * c.vcap) {G : Nat → Option Page} (hG : ∀ ph, ph < v.next → ph < c.numVar → G ph = v.dev.file ph) :
    Spec.fetch c.pageSize c.vhdr c.numVar G (vaddr c e.a % (c.numVar * c.pageSize)) = some e.bs := by
  have hnv := h.nv
  have hae : e.a ≤ e.fin := by unfold Ent.fin; omega
  refine fetch_of h (hes.ok e he) ?_
  intro j j1 j2
  obtain ⟨p, p1, p2⟩ := I.holds h (q := e.a) (n := e.fin - e.a) (by rw [hmin]; exact Nat.zero_le _) (by omega) j j1 (by omega)
  have := I.sim.sum
  have := I.base0 hmin
  have hj : j < v.next := by
    by_contra hcon
    have := Nat.mul_le_mul_right c.vcap (show v.next ≤ j by omega)
    omega
  refine ⟨p, ?_, p2⟩
  have e1 : j % c.numVar = j := Nat.mod_eq_of_lt (by omega)
  rw [hG _ (by omega) (by omega)]
  exact p1

/-! ### The data file -/

/-- The stages of writing a data page. -/
theorem cut_out (hok : c.Ok K) (hml : d.min ≤ d.next) (R : Room c d) (j : Nat) :
    ((Spec.writes ((between d.dev (outDev c d)).take j)).length = 0 ∧
      ∀ n, outMin c d ≤ n → n < d.next → cutBetween c d.dev (outDev c d) j (n % c.N) = (outDev c d).file (n % c.N)) ∨
    ((Spec.writes ((between d.dev (outDev c d)).take j)).length = 1 ∧ cutBetween c d.dev (outDev c d) j = (outDev c d).file) := by
  have hk : ∀ n, outMin c d ≤ n → n < d.next → (outDev c d).file (n % c.N) = d.dev.file (n % c.N) :=
    fun n h1 h2 => outDev_keeps hok hml R h1 h2
  have hb : between d.dev (outDev c d) = (if d.avail = 0 then [.erase (d.next % c.N) (d.next % c.N + c.B)] else []) ++ [.write (d.next % c.N) (outPage d)] := by
    unfold between outDev
    simp only [List.append_assoc]
    rw [List.drop_left]
  unfold cutBetween
  rw [hb]
  by_cases ha : d.avail = 0
  · rw [if_pos ha]
    simp only [List.cons_append, List.nil_append]
    match j with
    | 0 => left; exact ⟨rfl, fun n h1 h2 => (hk n h1 h2).symm⟩
    | 1 =>
      left
      refine ⟨rfl, ?_⟩
      intro n h1 h2
      have hm := outMin_le hok hml R
      simp only [List.take_succ_cons, List.take_zero, List.foldl_cons, List.foldl_nil, Spec.applyEv]
      have hne : n % c.N ≠ d.next % c.N := fun h => by
        have := mod_inj_window (N := c.N) (l := n) (m := d.next) (by omega) (by omega) h; omega
      unfold outDev
      simp only
      rw [if_neg hne]
      by_cases hc : d.next % c.N ≤ n % c.N ∧ n % c.N < d.next % c.N + c.B
      · rw [if_pos hc, if_pos ⟨ha, hc⟩]
      · rw [if_neg hc, if_neg (fun h => hc h.2)]
    | j + 2 =>
      right
      simp only [List.take_succ_cons, List.take_nil, List.foldl_cons, List.foldl_nil]
      refine ⟨rfl, ?_⟩
      funext i
      simp only [Spec.applyEv, outDev]
      by_cases hi : i = d.next % c.N
      · rw [if_pos hi, if_pos hi]
      · rw [if_neg hi, if_neg hi]
        by_cases hc : d.next % c.N ≤ i ∧ i < d.next % c.N + c.B
        · rw [if_pos hc, if_pos ⟨ha, hc⟩]
        · rw [if_neg hc, if_neg (fun h => hc h.2)]
  · rw [if_neg ha]
    simp only [List.nil_append]
    match j with
    | 0 => left; exact ⟨rfl, fun n h1 h2 => (hk n h1 h2).symm⟩
    | j + 1 =>
      right
      simp only [List.take_succ_cons, List.take_nil, List.foldl_cons, List.foldl_nil]
      refine ⟨rfl, ?_⟩
      funext i
      simp only [Spec.applyEv, outDev]
      by_cases hi : i = d.next % c.N
      · rw [if_pos hi, if_pos hi]
      · rw [if_neg hi, if_neg hi, if_neg (fun h => ha h.1)]

/-- The records of a data page refer to variable data that is in the file. -/
theorem page_ok (hv : c.VFile) (I : VInv c False lo K g v) (hes : EntsOk c g) (hvars : ∀ e ∈ g.es, l.var e.key = some e.bs)
    (hno : ∀ r ∈ l.log.all, (∀ e ∈ g.es, e.key ≠ r.1) → l.var r.1 = none) {l' : VLog}
    (hl : ∀ r ∈ l.log.all, l'.var r.1 = l.var r.1) {G : Nat → Option Page} (hG : ∀ ph, ph < v.next → ph < c.numVar → G ph = v.dev.file ph)
    {p : Page} (h1 : LocOk c g.es p) (h2 : DataBelow c g.es (v.next * c.vcap) p)
    (h3 : ∀ i, i < pageCount p → ∃ r ∈ l.log.all, r.1 = slotKey c p i) {i : Nat} (hi : i < pageCount p) :
    match l'.var (slotKey c p i) with
    | some b => Spec.fetch c.pageSize c.vhdr c.numVar G (slotLoc c p i) = some b
    | none => slotLoc c p i = noVar := by
  obtain ⟨r, r1, r2⟩ := h3 i hi
  rw [← r2, hl r r1]
  rcases h1 i hi with ⟨q1, q2⟩ | ⟨e, q1, q2, q3⟩
  · rw [hno r r1 (by rw [r2]; exact q2)]
    exact q1
  · rw [r2, ← q2, hvars e q1]
    simp only
    rw [q3]
    exact fetch_ok hv I hes q1 (I.wrap.resolve_right id) (h2 i hi e q1 q2) hG

/-- What `embedDBPutVar` does to the data file, stage by stage. -/
theorem put_file (hok : c.Ok K) (hv : c.VFile) {P : Nat} (hB : Bounds c lo K P) {L : Log} (T : Table c lo K d L) (hP : d.next + 1 ≤ P)
    (x : Idx) (loc : Nat) {key : Nat} {data : List Byte} (hd : data.length = c.dataSize) (hlo : lo ≤ key) (hk : key < K)
    (hgt : ∀ r ∈ L.all, r.1 < key) (hcache : L.buf.length ≥ c.maxRec → d.buffered ≠ some (d.next % c.N))
    {d' : Data} {x' : Idx} {r : Int} {w : Bool} (e : putX c d x key data loc = .ok (d', x', r, w)) :
    (∀ n, d'.min ≤ n → n < d.next → d.dev.file (n % c.N) = d'.dev.file (n % c.N)) ∧ d.next ≤ d'.next ∧ d.min ≤ d'.min ∧
    (∀ j n, d'.min ≤ n → n < d.next + (Spec.writes ((between d.dev d'.dev).take j)).length →
      n < d'.next ∧ cutBetween c d.dev d'.dev j (n % c.N) = d'.dev.file (n % c.N)) ∧
    (∀ Q : Page → Prop, (∀ p q, SameRecs c p q → Q q → Q p) → (∀ n, d.min ≤ n → n < d.next → ∀ p, d.dev.file (n % c.N) = some p → Q p) →
      (pageCount d.wbuf ≥ c.maxRec → Q d.wbuf) → ∀ n, d'.min ≤ n → n < d'.next → ∀ p, d'.dev.file (n % c.N) = some p → Q p) := by
  have hsame : ∀ {D : Data}, D.dev = d.dev → ∀ j, cutBetween c d.dev D.dev j = D.dev.file ∧
      (Spec.writes ((between d.dev D.dev).take j)).length = 0 := by
    intro D hD j
    rw [hD]
    unfold cutBetween between
    rw [List.drop_length, List.take_nil]
    exact ⟨rfl, rfl⟩
  rcases dataPutX hok (Or.inl rfl) hv hB T hP x loc hd hlo hk hgt hcache with ⟨d1, w1, x1, E1, hx, -⟩ | ⟨d1, w1, hx, -, E1, -⟩
  · rw [e] at hx
    simp only [Res.ok.injEq, Prod.mk.injEq] at hx
    obtain ⟨rfl, -⟩ := hx
    have hml : d1.min ≤ d1.next := by rw [E1.min, E1.next]; exact T.sim.minle
    have hR : Room c d1 := T.room.congr E1
    have hQ := fun (Q : Page → Prop) hs H hw => locs_accepted (d := d1) hok hml hR (Q := Q) hs H hw key data loc
    rw [E1.min, E1.next, E1.dev, E1.wbuf] at hQ
    by_cases hf : pageCount d1.wbuf ≥ c.maxRec
    · have a1 : (accepted c d1 key data loc).dev = outDev c d1 := by unfold accepted; simp only; rw [if_pos hf]; rfl
      have a2 : (accepted c d1 key data loc).next = d1.next + 1 := by unfold accepted; simp only; rw [if_pos hf]; rfl
      have a3 : (accepted c d1 key data loc).min = outMin c d1 := by unfold accepted; simp only; rw [if_pos hf]; rfl
      have hm := outMin_le hok hml hR
      refine ⟨?_, by rw [a2, E1.next]; omega, by rw [a3, ← E1.min]; exact hm.1, ?_, hQ⟩
      · intro n h1 h2
        rw [a1, ← E1.dev]
        rw [a3] at h1
        rw [← E1.next] at h2
        exact (outDev_keeps hok hml hR h1 h2).symm
      · intro j n h1 h2
        rw [a1, ← E1.dev, ← E1.next] at h2
        rw [a1, a2, ← E1.dev]
        rw [a3] at h1
        rcases cut_out hok hml hR j with ⟨q1, q2⟩ | ⟨q1, q2⟩
        · rw [q1] at h2
          exact ⟨by omega, q2 n h1 (by omega)⟩
        · rw [q1] at h2
          exact ⟨h2, by rw [q2]⟩
    · have a1 : (accepted c d1 key data loc).dev = d1.dev := by unfold accepted; simp only; rw [if_neg hf]
      have a2 : (accepted c d1 key data loc).next = d1.next := by unfold accepted; simp only; rw [if_neg hf]
      have a3 : (accepted c d1 key data loc).min = d1.min := by unfold accepted; simp only; rw [if_neg hf]
      rw [E1.dev] at a1
      refine ⟨?_, by rw [a2, E1.next], by rw [a3, E1.min], ?_, hQ⟩
      · intro n _ _; rw [a1]
      · intro j n h1 h2
        obtain ⟨b1, b2⟩ := hsame a1 j
        rw [b2] at h2
        exact ⟨by rw [a2, E1.next]; exact h2, by rw [b1]⟩
  · rw [e] at hx
    simp only [Res.ok.injEq, Prod.mk.injEq] at hx
    obtain ⟨rfl, -⟩ := hx
    refine ⟨?_, by rw [E1.next], by rw [E1.min], ?_, ?_⟩
    · intro n _ _; rw [E1.dev]
    · intro j n h1 h2
      obtain ⟨b1, b2⟩ := hsame E1.dev j
      rw [b2] at h2
      exact ⟨by rw [E1.next]; exact h2, by rw [b1]⟩
    · intro Q _ H _
      rw [E1.min, E1.next, E1.dev]
      exact H

end

end EDB
