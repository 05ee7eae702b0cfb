import Verif.Proofs.VarIdx
import Verif.Props.Index
import Verif.Props.Var
import Verif.Props.VarWrap

/-! Property C29 for tables that have a bitmap index as well as variable data, and a concrete table of this kind that
meets the hypotheses of the C26–C29 theorems. -/

namespace EDB

open Spec (VLog VOp VOut)

/-- C29 with a bitmap index (`_partial`: as `C29_scan_partial`; every flush completes the index page under construction,
see `C23_false_flush`).  In every state reached as in C26 whose write buffer is empty or whose data file is empty:
iterating with `embedDBNextVar` over any range of keys and data, skipping pages by their bitmaps, and reading every stream
returns exactly the retained records in the range, each with its own variable data. -/
theorem C29_index_scan_partial (c : Cfg) (lo K : Nat) (ops : List VOp) (rb rb' vrb : Page) (sm : Nat → Nat × Nat) (hvf : Bool)
    (hok : c.Ok K) (hv : c.VFile) (hx : c.IdxOk) (hB : Bounds c lo K ops.length) (h128 : c.maxRec ≤ 128)
    (hC : ClientV c lo K ops) (hroom : varNeed c 0 ops + c.vcap ≤ c.numVar * c.vcap)
    (hcache : CacheOk c (Data.fresh c rb sm) (Idx.fresh c rb') (Var.fresh c vrb hvf) ops)
    (hclean : Along c (CleanRead c) (Data.fresh c rb sm) (Idx.fresh c rb') (Var.fresh c vrb hvf) ops)
    (hidx : IdxAlong c (fun x => pageCount x.wbuf + 1 = c.maxIdx) (Data.fresh c rb sm) (Idx.fresh c rb') (Var.fresh c vrb hvf) ops)
    (l : VLog) (hl : l = Spec.vlogAfter c.maxRec VLog.empty (historyV c (Data.fresh c rb sm) (Idx.fresh c rb') (Var.fresh c vrb hvf) ops))
    (hplace : l.log.buf = [] ∨ l.log.pages = []) (q : Spec.Range) (hq : KeysOk K q) :
    ∃ d x v d' x' v', runOpsV c (Data.fresh c rb sm) (Idx.fresh c rb') (Var.fresh c vrb hvf) ops = .ok (d, x, v) ∧
      scanVar c d x v q = .ok (d', x', v',
        (Spec.scan c.cmpData q (l.log.live (Spec.dropped c.N c.B l.log.pages.length))).map fun r => (r, l.var r.1)) := by
  subst hl
  obtain ⟨d, x, v, g, e1, T, hn, -, -, hr, -, -, -, -, I⟩ := reachX_with (E := False) hok hv h128 (fun h => h.elim) ops [] hB (le_refl _) rb vrb sm hvf
    (Idx.fresh c rb') c.vcap (by rw [List.append_nil]; exact hC) (Or.inr (by rw [List.append_nil]; exact hroom)) (by rw [List.append_nil]; exact hcache)
    (fun h => h.elim) (by rw [List.append_nil]; exact hclean) (fun x h _ => by omega) (by rw [List.append_nil]; exact hidx)
    (J := fun d x l => IdxKept c d x l.log) (IdxKept.fresh c rb rb' sm)
    (fun d x v op d' x' v' o l g l' g' hR hd I _ T _ hobs e => I.step hok hx hv.vdata (by rw [← T.tab.sim.buf, recs_length]) hR hd hobs e)
  have hr1 : RoomFor c False (v.next + 1) := room_next hv T hr (by omega)
  have hs : VSync v := T.inv.sync hv (T.inv.wrap.resolve_right (fun h => h))
  have R : ScanReady c False d v := by
    refine ⟨hs, ?_⟩
    rcases hplace with h | h
    · left; rw [← recs_length c d.wbuf, T.tab.sim.buf, h]; rfl
    · right
      refine ⟨by rw [T.tab.sim.next, h]; rfl, Or.inr ⟨?_, hr1⟩⟩
      obtain ⟨g', z, v', f1, f2, -⟩ := T.inv.flush hv hB.key T.opn (fun _ => hr1)
      rw [f1]
      exact f2.sync hv (f2.wrap.resolve_right (fun h => h))
  obtain ⟨d', x', v', g', out, o1, oT, -, o2⟩ := scanVar_idx hok hv hx hB T I.idx R hn hq
  refine ⟨d, x, v, d', x', v', e1, ?_⟩
  have hdrop := T.tab.dropped_max hok.B0 (dvd_zero _)
  rw [Nat.zero_max] at hdrop
  rw [o1, ← hdrop, o2.all (oT.inv.wrap.resolve_right (fun h => h))]

/-! ### The hypotheses are satisfiable -/

/-- As `demoV`, with an index file and room for more pages: eighteen one-byte bitmaps fit into an index page. -/
def demoVI : Cfg := { demoV with
  N := 24, numVar := 40, bitmapSize := 1, numIdx := 4, useIndex := true, useBmap := true
  cmpData := fun a b => Spec.cmp3 (int16At a) (int16At b), updBm := updBytes8, buildBm := buildBytes8 }

theorem demoVI_ok (K : Nat) : demoVI.Ok K where
  B0 := by decide
  dvd := by decide
  two := by decide
  page := by decide
  cap := by decide
  cap16 := by decide
  spl := by decide
  layout := ⟨by decide, by decide, fun _ _ _ => rfl⟩
  cmp := demo_cmp K
  plain := rfl
  spline := rfl
  io _ := rfl

theorem demoVI_vfile : demoVI.VFile where
  vdata := rfl
  page := by decide
  B0 := by decide
  dvd := by decide
  two := by decide
  mem := by decide
  key8 := by decide
  io _ := rfl
  cap _ := by decide

theorem demoVI_idxOk : demoVI.IdxOk where
  sound := sound8 4 _
    (by intro v b; show 0 ≤ Spec.cmp3 _ _ → _; unfold Spec.cmp3; split_ifs <;> intro h <;> omega)
    (by intro v b; show Spec.cmp3 _ _ ≤ 0 → _; unfold Spec.cmp3; split_ifs <;> intro h <;> omega)
  bmap := rfl
  index := rfl
  maxMin := by decide
  bm0 := by decide
  cap := by decide
  page := by decide
  dvd := by decide
  two := by decide

theorem demoVI_bounds {lo K P : Nat} (hK : K ≤ 2 ^ 32) (hP : P < 2 ^ 30) : Bounds demoVI lo K P :=
  have h := demoV_bounds (lo := lo) hK hP
  ⟨h.prod, h.pages, h.key⟩

/-- A new table. -/
def demoVI0 : Data := Data.fresh demoVI (fun _ => 0) (fun _ => (0, 0))

/-- Its index. -/
def demoVIX0 : Idx := Idx.fresh demoVI (fun _ => 0)

/-- Its variable data. -/
def demoVIV0 : Var := Var.fresh demoVI (fun _ => 0) false

/-- Thirty-five inserts with growing data, every fifth with variable data, and a flush, which writes the eighteenth data
page and completes the first index page. -/
def demoVIOps : List VOp :=
  ((List.range 35).map fun i => .put (i + 1) (dat (UInt8.ofNat (3 * i))) (if i % 5 = 0 then some (blob (i + 1) (UInt8.ofNat i)) else none)) ++
    [.flush, .getVar 6, .getVar 7, .get 35]

/-- Check of `IdxAlong` on a concrete run. -/
def idxAlongB (c : Cfg) (R : Idx → Bool) : Data → Idx → Var → List VOp → Bool
  | _, _, _, [] => true
  | d, x, v, op :: ops => (decide (op ≠ .flush) || R x) && match stepV c d x v op with
    | .ok (d', x', v', _) => idxAlongB c R d' x' v' ops
    | _ => true

theorem idxAlongB_ok {c : Cfg} {R : Idx → Bool} {R' : Idx → Prop} (hR : ∀ x, R x = true → R' x) :
    ∀ (ops : List VOp) (d : Data) (x : Idx) (v : Var), idxAlongB c R d x v ops = true → IdxAlong c R' d x v ops := by
  intro ops
  induction ops with
  | nil => intro d x v _; exact trivial
  | cons op ops ih =>
    intro d x v h
    unfold idxAlongB at h
    rw [Bool.and_eq_true] at h
    refine ⟨fun h0 => hR _ (by simpa [h0] using h.1), ?_⟩
    intro d' x' v' o e
    have := h.2
    rw [e] at this
    exact ih _ _ _ this

/-- The hypotheses of `C29_index_scan_partial` … -/
example : demoVI.Ok 1000 ∧ demoVI.VFile ∧ demoVI.IdxOk ∧ Bounds demoVI 1 1000 demoVIOps.length ∧ demoVI.maxRec ≤ 128 ∧ ClientV demoVI 1 1000 demoVIOps ∧
    varNeed demoVI 0 demoVIOps + demoVI.vcap ≤ demoVI.numVar * demoVI.vcap ∧ CacheOk demoVI demoVI0 demoVIX0 demoVIV0 demoVIOps ∧
    Along demoVI (CleanRead demoVI) demoVI0 demoVIX0 demoVIV0 demoVIOps ∧
    IdxAlong demoVI (fun x => pageCount x.wbuf + 1 = demoVI.maxIdx) demoVI0 demoVIX0 demoVIV0 demoVIOps :=
  ⟨demoVI_ok _, demoVI_vfile, demoVI_idxOk, demoVI_bounds (by decide) (by decide), by decide, clientVB_ok (by decide +kernel), by decide +kernel,
    Or.inl (by decide +kernel), alongB_ok (cleanB_ok (c := demoVI)) _ _ _ _ (by decide +kernel),
    idxAlongB_ok (R := fun x => decide (pageCount x.wbuf + 1 = demoVI.maxIdx)) (fun _ h => of_decide_eq_true h) _ _ _ _ (by decide +kernel)⟩

/-- … hence those of the C26 and C28 theorems, … -/
example : IdxSafe demoVI demoVI0 demoVIX0 demoVIV0 demoVIOps :=
  idxAlongB_ok (R := fun x => decide (pageCount x.wbuf < demoVI.maxIdx)) (fun _ h _ => of_decide_eq_true h) _ _ _ _ (by decide +kernel)

/-- … what the client sees of the variable data, … -/
example : (historyV demoVI demoVI0 demoVIX0 demoVIV0 demoVIOps).drop 36 =
    [(.getVar 6, some (.gotVar 0 (some (dat 15)) (some (blob 6 5)))), (.getVar 7, some (.gotVar 0 (some (dat 18)) none)),
     (.get 35, some (.got 0 (some (dat 102))))] := by
  decide +kernel

/-- … and a scan by data value after the bitmaps were written to the index file. -/
example : ((runOpsV demoVI demoVI0 demoVIX0 demoVIV0 demoVIOps).check fun s =>
    decide (s.2.1.next = 1 ∧ pageCount s.2.1.wbuf = 0) &&
    (scanVar demoVI s.1 s.2.1 s.2.2 ⟨none, none, some (dat 44), some (dat 51)⟩).check fun t =>
      decide (t.2.2.2 = [((16, dat 45), some (blob 16 15)), ((17, dat 48), none), ((18, dat 51), none)])) = true := by
  decide +kernel

end EDB
