import Verif.Proofs.VarWordLife
import Verif.Proofs.VarWordReach
import Verif.Props.VarWrap
import Verif.Props.VarLives

/-!
# C72: variable data beyond 4 GiB

The code keeps the position in the variable data file in the 32-bit field `currentVarLoc`.  `Model/VarWord.lean` is the
code with this field and the other `uint32_t` positions; `Model/Var.lean` counts without bound.
-/

namespace EDB

open Spec (Log VLog VOp VOut)

/-- C72 (`_partial`: the size of the variable data file divides 2^32, and the conditions of `C28_history_partial`).  Any
number of bytes may be written, so the position may pass 2^32 any number of times: every `embedDBGetVar` of a retained
record returns either code 0, the data and exactly the bytes stored with it, or – only if it was inserted with variable
data – code 1, the data and no stream; other keys get -1; inserts, flushes and lookups behave as in C01/C05.  If the size
does not divide 2^32 the claim is false: `C72_false_other_data`, `C72_false_full_size`. -/
theorem C72_history_partial (c : Cfg) (lo K : Nat) (ops : List VOp) (rb vrb : Page) (sm : Nat → Nat × Nat) (hvf : Bool) (x : Idx)
    (hok : c.Ok K) (hv : c.VFile) (hdvd : c.numVar * c.pageSize ∣ 2 ^ 32) (hid : c.eraseFx = id) (hB : Bounds c lo K ops.length)
    (h128 : c.maxRec ≤ 128) (hC : ClientV c lo K ops)
    (hS : Along c (CacheFree c) (Data.fresh c rb sm) x (Var.fresh c vrb hvf) ops)
    (hW : Along c (WrapSafe c) (Data.fresh c rb sm) x (Var.fresh c vrb hvf) ops)
    (hidx : IdxSafe c (Data.fresh c rb sm) x (Var.fresh c vrb hvf) ops) :
    Spec.VRun (fun _ => True) (fun L => L.live (Spec.dropped c.N c.B L.pages.length))
      (fun l k o => Spec.vAnswerOrGone (l.log.live (Spec.dropped c.N c.B l.log.pages.length)) l.var k o) Spec.NotBuffered
      c.maxRec VLog.empty (historyV32 c (Data.fresh c rb sm) x (Var.fresh c vrb hvf) ops) := by
  have hps := hv.ps
  have hmem := hv.mem
  have hw : (Var.fresh c vrb hvf).word = Var.fresh c vrb hvf := by
    have hl : (Var.fresh c vrb hvf).loc < 2 ^ 32 := by
      have h1 : (Var.fresh c vrb hvf).loc = c.vhdr := rfl
      have := Nat.le_mul_of_pos_left c.pageSize hv.nv
      omega
    unfold Var.word w32
    rw [Nat.mod_eq_of_lt hl]
  rw [← hw, historyV_word hdvd hmem (Nat.mul_pos hv.nv (by unfold Cfg.vhdr at hps; omega))]
  exact C28_history_partial c lo K ops rb vrb sm hvf x hok hv hid hB h128 hC hidx hS hW

/-- C72, files of any size (`_partial`: the conditions of `C28_history_partial`, `CleanRead`, and the position at the end is
below 2^32).  The state at the end and every answer are those without 32-bit variables, hence as in C28.  `L` bounds the
length of the client's variable data: no address that a lookup computes passes 2^32. -/
theorem C72_below_partial (c : Cfg) (lo K L : Nat) (ops : List VOp) (rb vrb : Page) (sm : Nat → Nat × Nat) (hvf : Bool) (x : Idx)
    (hok : c.Ok K) (hv : c.VFile) (hid : c.eraseFx = id) (hB : Bounds c lo K ops.length) (h128 : c.maxRec ≤ 128) (hC : ClientV c lo K ops)
    (hF : c.numVar * c.pageSize + c.vhdr + L * (1 + c.vhdr) < 2 ^ 32) (hL : ∀ k a b, VOp.put k a (some b) ∈ ops → b.length ≤ L)
    (hS : Along c (CacheFree c) (Data.fresh c rb sm) x (Var.fresh c vrb hvf) ops)
    (hW : Along c (WrapSafe c) (Data.fresh c rb sm) x (Var.fresh c vrb hvf) ops)
    (hR : Along c (CleanRead c) (Data.fresh c rb sm) x (Var.fresh c vrb hvf) ops)
    (hidx : IdxSafe c (Data.fresh c rb sm) x (Var.fresh c vrb hvf) ops)
    (d : Data) (x' : Idx) (v : Var) (hrun : runOpsV c (Data.fresh c rb sm) x (Var.fresh c vrb hvf) ops = .ok (d, x', v))
    (hpos : v.loc < 2 ^ 32) :
    runOpsV32 c (Data.fresh c rb sm) x (Var.fresh c vrb hvf) ops = .ok (d, x', v) ∧
    Spec.VRun (fun _ => True) (fun L => L.live (Spec.dropped c.N c.B L.pages.length))
      (fun l k o => Spec.vAnswerOrGone (l.log.live (Spec.dropped c.N c.B l.log.pages.length)) l.var k o) Spec.NotBuffered
      c.maxRec VLog.empty (historyV32 c (Data.fresh c rb sm) x (Var.fresh c vrb hvf) ops) := by
  obtain ⟨h1, h2⟩ := runOpsV_small (E := True) hok (Or.inl rfl) hv hB h128 hF
    (G := fun d x v ops => Along c (CacheFree c) d x v ops ∧ Along c (WrapSafe c) d x v ops ∧ Along c (CleanRead c) d x v ops ∧
      IdxSafe c d x v ops)
    (fun d v l g x op ops hg _ hc => hg.1.1 hc) (fun d x v op ops hg _ => hg.2.1.1) (fun d x v k ops hg => hg.2.2.1.1)
    (fun d x v ops hg => hg.2.2.2.1 rfl)
    (fun d x v op ops d' x' v' o l g l' g' hg _ _ _ e => ⟨hg.1.2 _ _ _ _ e, hg.2.1.2 _ _ _ _ e, hg.2.2.1.2 _ _ _ _ e, hg.2.2.2.2 _ _ _ _ e⟩) 0
    ops _ d x x' _ v VLog.empty ⟨0, [], [], []⟩ (fresh_vtable hok hv (fun _ => hid) rb vrb sm hvf) (by simp [Data.fresh]) hC hC.low
    (by simp [VLog.empty, Log.all, Log.empty]) (Or.inl trivial) ⟨hS, hW, hR, hidx⟩
    (by
      intro op ho
      cases op with
      | put k a b =>
        cases b with
        | none => exact trivial
        | some b => exact hL k a b ho
      | _ => exact trivial)
    (by intro k b h; cases h) hrun hpos
  refine ⟨h1, ?_⟩
  rw [h2]
  exact C28_history_partial c lo K ops rb vrb sm hvf x hok hv hid hB h128 hC hidx hS hW

/-! ### Non-vacuity -/

/-- As `demoB` with 4 variable pages: 256 bytes, which divide 2^32. -/
def demoQ : Cfg := { demoB with numVar := 4 }

theorem demoQ_ok (K : Nat) : demoQ.Ok K where
  B0 := by decide
  dvd := by decide
  two := by decide
  page := by decide
  cap := by decide
  cap16 := by decide
  spl := by decide
  layout := ⟨by decide, by decide, fun _ _ h => h⟩
  cmp := demo_cmp K
  plain := rfl
  spline := rfl
  io _ := rfl

theorem demoQ_vok : demoQ.VOk where
  vdata := rfl
  page := by decide
  B0 := by decide
  dvd := by decide
  two := by decide
  mem := by decide
  key8 := by decide
  idx := rfl
  io _ := rfl
  cap := fun h => by cases h

/-- Lookups of the first, the second and the last of nine records. -/
def demoWordReads : List VOp := [.getVar 1, .get 2, .getVar 9]

/-- Nine records, a flush and these lookups. -/
def demoWordOps : List VOp := putsTo 9 ++ .flush :: demoWordReads

theorem demoWord_puts : ∀ op ∈ putsTo 9, PutsData op := by
  intro op h
  obtain ⟨i, -, rfl⟩ := List.mem_map.mp h
  exact trivial

theorem demoWord_reads : ∀ op ∈ demoWordReads, ReadOnly op := by
  intro op h
  simp only [demoWordReads, List.mem_cons, List.not_mem_nil, or_false] at h
  rcases h with rfl | rfl | rfl <;> exact trivial

/-- The files of `demoQ`. -/
def demoQ0 : Data := Data.fresh demoQ (fun _ => 0) (fun _ => (0, 0))

@[inherit_doc demoQ0]
def demoVarQ0 : Var := Var.fresh demoQ (fun _ => 0) false

theorem demoWord_edge {c : Cfg} {d : Data} {v : Var}
    (h : ((runOpsV c d noIdx v (putsTo 9 ++ [.flush])).check fun s => decide (s.2.2.next ≤ c.numVar ∨ ¬ c.B ∣ s.2.2.next)) = true) :
    ∀ d' x' v', runOpsV c d noIdx v (putsTo 9 ++ [.flush]) = .ok (d', x', v') → v'.next ≤ c.numVar ∨ ¬ c.B ∣ v'.next := by
  intro d' x' v' e
  rw [e] at h
  exact of_decide_eq_true h

/-- The hypotheses of `C72_history_partial`: the file of 4 pages has wrapped twice. -/
example : demoQ.Ok 1000 ∧ demoQ.VOk ∧ demoQ.numVar * demoQ.pageSize ∣ 2 ^ 32 ∧ demoQ.eraseFx = id ∧ Bounds demoQ 1 1000 demoWordOps.length ∧
    demoQ.maxRec ≤ 128 ∧ ClientV demoQ 1 1000 demoWordOps ∧
    Along demoQ (WrapSafe demoQ) demoQ0 noIdx demoVarQ0 demoWordOps ∧ Along demoQ (CacheFree demoQ) demoQ0 noIdx demoVarQ0 demoWordOps :=
  ⟨demoQ_ok _, demoQ_vok, by decide, rfl, ⟨by decide, by decide, by decide⟩, by decide, clientVB_ok (by decide +kernel),
    phase_along (lo := 1) (P := 100) (demoQ_ok 1000) demoQ_vok rfl ⟨by decide, by decide, by decide⟩ (by decide) (by decide)
      demoWordReads demoWord_reads (putsTo 9) demoQ0 noIdx demoVarQ0 VLog.empty ⟨0, [], [], []⟩
      (fresh_vtable (demoQ_ok _) demoQ_vok (fun _ => rfl) _ _ _ _) (by decide) (clientVB_ok (by decide +kernel)) demoWord_puts
      (by simp [VLog.empty, Log.all, Log.empty]) (fresh_vph demoQ_vok _ _) rfl (Or.inr rfl) (fun h => absurd h (by decide))
      (fun _ => demoWord_edge (by decide +kernel)) (idxSafe_plain rfl _ _ _ _)⟩

/-- What the lookups observe. -/
example : (historyV32 demoQ demoQ0 noIdx demoVarQ0 demoWordOps).drop 10 =
    [(.getVar 1, some (.gotVar 1 (some (dat 0)) none)), (.get 2, some (.got 0 (some (dat 1)))),
     (.getVar 9, some (.gotVar 0 (some (dat 8)) (some (bytesOf 8))))] := by
  decide +kernel

/-- The hypotheses of `C72_below_partial` for the file of 6 pages (384 bytes), which has wrapped once. -/
example : demoB.Ok 1000 ∧ demoB.VOk ∧ demoB.eraseFx = id ∧ Bounds demoB 1 1000 demoWordOps.length ∧ demoB.maxRec ≤ 128 ∧
    ClientV demoB 1 1000 demoWordOps ∧ demoB.numVar * demoB.pageSize + demoB.vhdr + 1000 * (1 + demoB.vhdr) < 2 ^ 32 ∧
    (∀ k a b, VOp.put k a (some b) ∈ demoWordOps → b.length ≤ 1000) ∧
    (Along demoB (WrapSafe demoB) demoB0 noIdx demoVarB0 demoWordOps ∧ Along demoB (CacheFree demoB) demoB0 noIdx demoVarB0 demoWordOps) ∧
    Along demoB (CleanRead demoB) demoB0 noIdx demoVarB0 demoWordOps ∧
    ∃ d x v, runOpsV demoB demoB0 noIdx demoVarB0 demoWordOps = .ok (d, x, v) ∧ 384 < v.loc ∧ v.loc < 2 ^ 32 := by
  refine ⟨demoB_ok _, demoB_vok, rfl, ⟨by decide, by decide, by decide⟩, by decide, clientVB_ok (by decide +kernel), by decide, ?_,
    phase_along (lo := 1) (P := 100) (demoB_ok 1000) demoB_vok rfl ⟨by decide, by decide, by decide⟩ (by decide) (by decide)
      demoWordReads demoWord_reads (putsTo 9) demoB0 noIdx demoVarB0 VLog.empty ⟨0, [], [], []⟩
      (fresh_vtable (demoB_ok _) demoB_vok (fun _ => rfl) _ _ _ _) (by decide) (clientVB_ok (by decide +kernel)) demoWord_puts
      (by simp [VLog.empty, Log.all, Log.empty]) (fresh_vph demoB_vok _ _) rfl (Or.inr rfl) (fun h => absurd h (by decide))
      (fun _ => demoWord_edge (by decide +kernel)) (idxSafe_plain rfl _ _ _ _),
    alongB_ok (cleanB_ok (c := demoB)) _ _ _ _ (by decide +kernel), ?_⟩
  · intro k a b h
    have e : (demoWordOps.all fun | .put _ _ (some b) => decide (b.length ≤ 1000) | _ => true) = true := by decide +kernel
    exact of_decide_eq_true (List.all_eq_true.mp e _ h)
  · have e : ((runOpsV demoB demoB0 noIdx demoVarB0 demoWordOps).check fun s => decide (384 < s.2.2.loc ∧ s.2.2.loc < 2 ^ 32)) = true := by
      decide +kernel
    cases h : runOpsV demoB demoB0 noIdx demoVarB0 demoWordOps with
    | ub => rw [h] at e; cases e
    | fuel => rw [h] at e; cases e
    | ok s =>
      rw [h] at e
      exact ⟨s.1, s.2.1, s.2.2, rfl, of_decide_eq_true e⟩

end EDB
