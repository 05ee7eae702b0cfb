import Verif.Props.VarKept
import Verif.Props.VarRecovery
import Verif.Proofs.VarLives

/-!
# C70: lives of tables whose variable data file wraps

The client works on a table as in C28 (`AllowedW`); again and again the power fails, between two operations or inside one, and the
table is opened again and worked on (`LifeW`).
-/

namespace EDB

open Spec (Log VLog VOp VOut Rec)

theorem LifeW.inv {c : Cfg} {lo K P : Nat} (hok : c.Ok K) (hv : c.VFile) (hid : c.eraseFx = id) (hB : Bounds c lo K P) (h127 : c.maxRec ≤ 127)
    (hN32 : c.N < 2 ^ 32) (hP0 : 0 < P) {R n0 Q : Nat} {first : Nat → Nat} {d : Data} {x : Idx} {v : Var} {l : VLog}
    (h : LifeW c lo K P R n0 Q first d x v l) : ∃ lv low g, LifeInvW c lo K P R n0 Q first d v l lv low g := by
  induction h with
  | new rb vrb sm hvf x =>
    have h0 : Spec.recovered c.N c.B 0 = 0 := recovered_small (Nat.zero_le _)
    have h1 : firstRead c.numVar c.B 0 = 0 := by simp [firstRead, Spec.firstKept]
    refine ⟨lo, 0, ⟨0, [], [], []⟩, ?_, Or.inl h0, Nat.zero_le _, fresh_journal rb sm, by simp [VLog.empty, Log.all, Log.empty], hP0,
      VarRing.start .nil vrb hvf, le_refl _, by simp [VLog.empty, Log.all, Log.empty], by simp⟩
    rw [h0, h1]
    exact fresh_vtable (E := True) hok hv (fun _ => hid) rb vrb sm hvf
  | op h A hx e ih =>
    obtain ⟨lv, low, g, I⟩ := ih
    obtain ⟨d1, x1, v1, l1, g1, o1, s1, s2, -, -, I'⟩ := I.step hok hv hB (by omega) A _ hx
    rw [e] at s1
    simp only [Res.ok.injEq, Prod.mk.injEq] at s1
    obtain ⟨rfl, -, rfl, rfl⟩ := s1
    rw [vlogAfter_obs s2]
    exact ⟨lv, low, g1, I'⟩
  | cut h A hop hf hspl h32 hV rb vrb sm hvf hr ih =>
    obtain ⟨lv, low, g, I⟩ := ih
    obtain ⟨d1, v1, g1, s1, -, I'⟩ := I.cut hok hv hid hB h127 hN32 A hop hf hspl h32 hV rb vrb sm hvf
    rw [hr] at s1
    simp only [Prod.mk.injEq] at s1
    obtain ⟨rfl, rfl, -⟩ := s1
    exact ⟨_, _, g1, I'⟩

/-- C70, every operation (`_partial`: the conditions in `AllowedW` and `LifeW`).  After any life of the table, any operation of a
client that plays by the rules is carried out and has the right result.  The records found are those of the data pages that
the data file keeps (counting from the pages kept when the table was last opened) and of the write buffer; variable data is
exact, or gone exactly if it starts before the first page kept now, or before the first page delivered when the table was
last opened. -/
theorem C70_step_partial (c : Cfg) (lo K P : Nat) (hok : c.Ok K) (hv : c.VFile) (hid : c.eraseFx = id) (hB : Bounds c lo K P)
    (h127 : c.maxRec ≤ 127) (hN32 : c.N < 2 ^ 32) (hP0 : 0 < P) (R n0 Q : Nat) (first : Nat → Nat) (d : Data) (x : Idx) (v : Var) (l : VLog)
    (h : LifeW c lo K P R n0 Q first d x v l) (op : VOp) (A : AllowedW c lo K P Q d v op)
    (hx : op = .flush → IdxRoom c x) :
    ∃ d' x' v' o, stepV c d x v op = .ok (d', x', v', o) ∧
      Spec.LifeAnswer c.maxRec l (l.log.live (max (Spec.recovered c.N c.B R) (Spec.dropped c.N c.B l.log.pages.length)))
        (fun k => first k < max (Spec.firstGiven c.numVar c.B n0) (Spec.dropped c.numVar c.B (Spec.writes v'.dev.log).length)) op o := by
  obtain ⟨lv, low, g, I⟩ := h.inv hok hv hid hB h127 hN32 hP0
  obtain ⟨d', x', v', l', g', o, e, hobs, -, hes, I'⟩ := I.step hok hv hB (by omega) A x hx
  refine ⟨d', x', v', o, e, ?_⟩
  have hmin := I.tab.tab.dropped_max hok.B0 recovered_dvd
  rw [← hmin]
  cases op with
  | put k a b =>
    rcases hobs with ⟨h1, -⟩ | ⟨h1, -, h2⟩
    · exact Or.inl h1
    · exact Or.inr ⟨h1, h2⟩
  | flush => exact hobs.1
  | get k => exact hobs.2
  | getVar k =>
    obtain ⟨rfl, r, out, bs, rfl, h⟩ := hobs
    have hvm := I'.tab.inv.vmin_max hv
    rw [I'.ring.2.count]
    have hf : Spec.firstGiven c.numVar c.B n0 = firstRead c.numVar c.B n0 := rfl
    rw [Spec.LifeAnswer]
    unfold Spec.KeptAnswer
    cases hl : Spec.lookup (l'.log.live d.min) k with
    | none =>
      rw [hl] at h
      obtain ⟨rfl, rfl, rfl⟩ := h
      rfl
    | some a =>
      rw [hl] at h
      obtain ⟨rfl, h⟩ := h
      simp only
      rcases h with ⟨rfl, rfl, hno⟩ | ⟨e1, m1, m2, h⟩
      · have hm := (lookup_eq_some (Log_live_sorted I.tab.tab.sim.sorted d.min)).mp hl
        have : l'.var k = none := I.tab.novar (k, a) (live_le I.tab.tab.sim.amin hm) (fun e he => hno e (by rw [hes k rfl]; exact he))
        rw [this]
      · have hvar := I'.tab.vars e1 m1
        have hfst := I'.first e1 m1
        simp only [startPage] at hfst
        rw [m2] at hvar hfst
        rw [hvar]
        simp only [hfst, hf]
        simp only at hvm
        rw [← hvm]
        rcases h with ⟨h1, rfl, rfl⟩ | ⟨h1, rfl, rfl⟩
        · exact Or.inl ⟨h1, rfl⟩
        · exact Or.inr ⟨by omega, rfl⟩

/-- C70, every power failure (`_partial`: the same conditions; not inside a flush, see `C30_false_flush`; the data file has not
wrapped or the error bound of the spline is at most 1; not a single variable page that names key 0).  The table opens again,
with the data pages written, and its life goes on: nothing but the records of the write buffer is lost, and the read cache of
the variable data file agrees with the file. -/
theorem C70_reopen_partial (c : Cfg) (lo K P : Nat) (hok : c.Ok K) (hv : c.VFile) (hid : c.eraseFx = id) (hB : Bounds c lo K P)
    (h127 : c.maxRec ≤ 127) (hN32 : c.N < 2 ^ 32) (hP0 : 0 < P) (R n0 Q : Nat) (first : Nat → Nat) (d : Data) (x x'' : Idx) (v : Var) (l : VLog)
    (h : LifeW c lo K P R n0 Q first d x v l) (op : VOp) (A : AllowedW c lo K P Q d v op) (hop : op ≠ .flush) (D V : Dev)
    (hf : PowerFail c d x v op D V) (hspl : (Spec.writes D.log).length ≤ c.N ∨ c.maxErr ≤ 1) (h32 : (Spec.writes V.log).length + 1 < 2 ^ 32)
    (hV : (Spec.writes V.log).length = 1 → ¬ LonePage c V) (rb vrb : Page) (sm : Nat → Nat × Nat) (hvf : Bool) :
    ∃ d'' v'' pages, reopenV c D V rb sm vrb hvf = (d'', v'', 0) ∧ (pages = l.log.pages ∨ pages = l.log.pages ++ [l.log.buf]) ∧
      pages.length = (Spec.writes D.log).length ∧
      VSync v'' ∧ LifeW c lo K P pages.length v''.next (Spec.nextKey Q op) first d'' x'' v'' ⟨⟨pages, []⟩, l.var⟩ := by
  obtain ⟨lv, low, g, I⟩ := h.inv hok hv hid hB h127 hN32 hP0
  obtain ⟨d'', v'', g'', e, hs, I'⟩ := I.cut hok hv hid hB h127 hN32 A hop hf hspl h32 hV rb vrb sm hvf
  have hlife := LifeW.cut (x'' := x'') h A hop hf hspl h32 hV rb vrb sm hvf e
  have hold := I'.old
  simp only at hold
  have hlen : ((l.log.pages ++ [l.log.buf]).take (Spec.writes D.log).length).length = (Spec.writes D.log).length := by
    have := List.length_take (i := (Spec.writes D.log).length) (l := l.log.pages ++ [l.log.buf])
    omega
  refine ⟨d'', v'', _, e, ?_, hlen, hs, by rw [hlen]; exact hlife⟩
  have h0 := (writes_prefix (hf.log hok hv)).length_le
  rw [← wrote_length, I.jr.count] at h0
  rw [List.length_take, List.length_append, List.length_singleton] at hlen
  rcases Nat.lt_or_ge l.log.pages.length (Spec.writes D.log).length with h1 | h1
  · right
    rw [List.take_of_length_le (by rw [List.length_append, List.length_singleton]; omega)]
  · left
    rw [show (Spec.writes D.log).length = l.log.pages.length by omega, List.take_left]

/-! ### The hypotheses are satisfiable -/

/-- Check of `WrapSafe` on a concrete state. -/
def wrapB (c : Cfg) (d : Data) (v : Var) : VOp → Bool
  | .put _ _ _ => decide (pageCount d.wbuf < c.maxRec) || decide (v.loc % c.pageSize ≠ c.vhdr) || decide (vkey c v.wbuf ≠ 0)
  | .getVar _ => v.buffered.isNone && (flushVar c v).1.buffered.isNone
  | _ => true

theorem wrapB_ok {c : Cfg} (d : Data) (v : Var) (op : VOp) (h : wrapB c d v op = true) : WrapSafe c d v op := by
  cases op with
  | put k a b =>
    intro hc
    simp only [wrapB, Bool.or_eq_true, decide_eq_true_eq] at h
    rcases h with (h | h) | h
    · omega
    · exact Or.inl h
    · exact Or.inr h
  | getVar k =>
    simp only [wrapB, Bool.and_eq_true, Option.isNone_iff_eq_none] at h
    intro ph hph
    unfold readFrom at hph
    split_ifs at hph
    · rw [h.2] at hph; cases hph
    · rw [h.1] at hph; cases hph
  | _ => exact trivial

/-- Check of `AllowedW` on a concrete state. -/
def allowedWB (c : Cfg) (lo K P Q : Nat) (d : Data) (v : Var) (op : VOp) : Bool :=
  clientVB c lo K [op] && ((Spec.offeredV [op]).all fun k => decide (Q ≤ k)) && decide (d.next + 1 < P) && cacheFreeB c d v op &&
    cleanB c d v op && wrapB c d v op

theorem allowedWB_ok {c : Cfg} {lo K P Q : Nat} {d : Data} {v : Var} {op : VOp} (h : allowedWB c lo K P Q d v op = true) :
    AllowedW c lo K P Q d v op := by
  simp only [allowedWB, Bool.and_eq_true, decide_eq_true_eq, List.all_eq_true] at h
  obtain ⟨⟨⟨⟨⟨h1, h2⟩, h3⟩, h4⟩, h5⟩, h6⟩ := h
  exact ⟨clientVB_ok h1, h2, h3, cacheFreeB_ok _ _ _ h4, cleanB_ok _ _ _ h5, wrapB_ok _ _ _ h6⟩

/-- Check of a concrete part of a life. -/
def lifeWB (c : Cfg) (lo K P : Nat) (W : Nat → (Nat → Nat) → Data → Idx → Var → VLog → Bool) :
    Nat → (Nat → Nat) → Data → Idx → Var → VLog → List VOp → Bool
  | Q, first, d, x, v, l, [] => W Q first d x v l
  | Q, first, d, x, v, l, op :: ops => (allowedWB c lo K P Q d v op && roomB c x op) && (stepV c d x v op).check fun s =>
      lifeWB c lo K P W (Spec.nextKey Q op) (startPage c d v first op s.2.2.2) s.1 s.2.1 s.2.2.1
        (Spec.vlogAfter c.maxRec l [(op, some s.2.2.2)]) ops

theorem lifeWB_ok {c : Cfg} {lo K P R n0 : Nat} {W : Nat → (Nat → Nat) → Data → Idx → Var → VLog → Bool} :
    ∀ (ops : List VOp) (Q : Nat) (first : Nat → Nat) (d : Data) (x : Idx) (v : Var) (l : VLog), LifeW c lo K P R n0 Q first d x v l →
    lifeWB c lo K P W Q first d x v l ops = true → ∃ Q' first' d' x' v' l', LifeW c lo K P R n0 Q' first' d' x' v' l' ∧ W Q' first' d' x' v' l' = true := by
  intro ops
  induction ops with
  | nil => intro Q first d x v l h hW; exact ⟨Q, first, d, x, v, l, h, hW⟩
  | cons op ops ih =>
    intro Q first d x v l h hb
    rw [lifeWB, Bool.and_eq_true, Bool.and_eq_true] at hb
    obtain ⟨⟨d', x', v', o⟩, e, hb'⟩ := Res.check_ok hb.2
    exact ih _ _ _ _ _ _ (h.op (allowedWB_ok hb.1.1) (roomB_ok hb.1.2) e) hb'

/-- Operations after the table has been opened again. -/
def demoWNext : List VOp := [.put 6 (dat 6) (some (blob 20 60)), .put 7 (dat 7) (some (blob 20 70)), .flush]

/-- The five inserts of `demoWPuts`, a flush and the power failure; then two further inserts and a flush, the variable data
file having wrapped before and wrapping again. -/
def demoWLife (W : Nat → (Nat → Nat) → Data → Idx → Var → VLog → Bool) (Q : Nat) (first : Nat → Nat) (d : Data) (x : Idx) (v : Var) (l : VLog) : Bool :=
  allowedWB demoW 1 1000 100 Q d v (.get 1) && decide ((Spec.writes d.dev.log).length ≤ demoW.N ∧ (Spec.writes v.dev.log).length = 5) &&
    (match reopenV demoW d.dev v.dev (fun _ => 7) (fun _ => (0, 0)) (fun _ => 9) false with
    | (d', v', r) => decide (r = 0) && decide ((Spec.writes d.dev.log).length = 3 ∧ v'.next = 5) && lifeWB demoW 1 1000 100 W (Spec.nextKey Q (.get 1)) first d' x v'
      ⟨⟨(l.log.pages ++ [l.log.buf]).take (Spec.writes d.dev.log).length, []⟩, l.var⟩ demoWNext)

theorem demoWLife_ok {W : Nat → (Nat → Nat) → Data → Idx → Var → VLog → Bool}
    (h : lifeWB demoW 1 1000 100 (demoWLife W) 1 (fun _ => 0) demoW0 noIdx demoVarW0 VLog.empty (demoWPuts ++ [.flush]) = true) :
    ∃ Q first d x v l, LifeW demoW 1 1000 100 3 5 Q first d x v l ∧ W Q first d x v l = true := by
  obtain ⟨Q, first, d, x, v, l, hL, hW⟩ := lifeWB_ok _ _ _ _ _ _ _ (LifeW.new _ _ _ _ _) h
  simp only [demoWLife, Bool.and_eq_true, decide_eq_true_eq] at hW
  obtain ⟨⟨h1, h2, h3⟩, ⟨h4, h5, h5'⟩, h6⟩ := hW
  have hC := LifeW.cut (x'' := x) hL (allowedWB_ok h1) (by decide) (PowerFail.get 1) (Or.inl h2) (by omega) (by omega) (fun _ => 7) (fun _ => 9)
    (fun _ => (0, 0)) false (Prod.ext rfl (Prod.ext rfl h4))
  rw [h5, h5'] at hC
  rw [h5] at h6
  exact lifeWB_ok _ _ _ _ _ _ _ hC h6

/-- The life at its end: key 5 (data from page 4 on) is exact, key 3 (page 2) was given up when the table was opened, the
variable data file has 7 pages. -/
example : ∃ Q first d x v l, LifeW demoW 1 1000 100 3 5 Q first d x v l ∧ AllowedW demoW 1 1000 100 Q d v (.put 8 (dat 8) (some (blob 60 80))) ∧
    ((historyV demoW d x v [.getVar 5, .getVar 6, .getVar 3]).map Prod.snd =
      [some (.gotVar 0 (some (dat 4)) (some (blob 20 40))), some (.gotVar 0 (some (dat 6)) (some (blob 20 60))), some (.gotVar 1 (some (dat 2)) none)] ∧
    (first 5, first 6, first 3, v.next) = (4, 5, 2, 7) ∧ Q = 8) := by
  obtain ⟨Q, first, d, x, v, l, h, hW⟩ := demoWLife_ok (W := fun Q first d x v _ => allowedWB demoW 1 1000 100 Q d v (.put 8 (dat 8) (some (blob 60 80))) && decide
    ((historyV demoW d x v [.getVar 5, .getVar 6, .getVar 3]).map Prod.snd =
      [some (.gotVar 0 (some (dat 4)) (some (blob 20 40))), some (.gotVar 0 (some (dat 6)) (some (blob 20 60))), some (.gotVar 1 (some (dat 2)) none)] ∧
    (first 5, first 6, first 3, v.next) = (4, 5, 2, 7) ∧ Q = 8)) (by decide +kernel)
  rw [Bool.and_eq_true] at hW
  exact ⟨Q, first, d, x, v, l, h, allowedWB_ok hW.1, of_decide_eq_true hW.2⟩

end EDB
