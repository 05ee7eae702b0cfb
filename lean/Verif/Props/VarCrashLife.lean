import Verif.Props.VarCrash
import Verif.Props.VarLives

/-!
# C30 after any life, the variable data file having wrapped
-/

namespace EDB

open Spec (Log VLog VOp VOut Rec)

/-- Data page `n`, as found in the data file `F`, holds the records `rs`; every record that was inserted with variable data
(`var`) refers to a place of the variable data file `G` where exactly these bytes are, unless the data is `gone`; every
other record refers to nothing. -/
def VarStoredOr (c : Cfg) (rs : List Rec) (var : Nat → Option (List Byte)) (gone : Nat → Prop) (F G : Nat → Option Page) (n : Nat) : Prop :=
  ∃ p, F (n % c.N) = some p ∧ recs c p = rs ∧ ∀ i, i < pageCount p →
    match var (slotKey c p i) with
    | some b => gone (slotKey c p i) ∨ Spec.fetch c.pageSize c.vhdr c.numVar G (slotLoc c p i) = some b
    | none => slotLoc c p i = noVar

/-- C30 (`_partial`: the conditions of C70).  After any life of a table with variable data - any number of wraps of both files,
power failures and reopenings - the power fails inside an insert or a lookup, at any storage operation of either file: every data
page written by then and retained is in the data file with its records, and the variable data of each of these records is in
the variable data file byte for byte, unless it starts on a page older than those the variable data file keeps (`firstKept`).

Missing: power failures during `embedDBFlush`, which writes the data page first (then the claim is false: `C30_false_flush`). -/
theorem C30_life_partial (c : Cfg) (lo K P : Nat) (hok : c.Ok K) (hv : c.VFile) (hid : c.eraseFx = id) (hB : Bounds c lo K P)
    (h127 : c.maxRec ≤ 127) (hN32 : c.N < 2 ^ 32) (hP0 : 0 < P) (R n0 Q : Nat) (first : Nat → Nat) (d : Data) (x : Idx) (v : Var) (l : VLog)
    (h : LifeW c lo K P R n0 Q first d x v l) (op : VOp) (A : AllowedW c lo K P Q d v op) (hop : op ≠ .flush) (D V : Dev)
    (hf : PowerFail c d x v op D V) (hspl : (Spec.writes D.log).length ≤ c.N ∨ c.maxErr ≤ 1) (h32 : (Spec.writes V.log).length + 1 < 2 ^ 32)
    (hV : (Spec.writes V.log).length = 1 → ¬ LonePage c V) (n : Nat) (hn : Spec.recovered c.N c.B (Spec.writes D.log).length ≤ n)
    (hlt : n < (Spec.writes D.log).length) :
    VarStoredOr c ((l.log.pages ++ [l.log.buf]).getD n []) l.var (fun k => first k < Spec.firstKept c.numVar c.B (Spec.writes V.log).length)
      D.file V.file n := by
  obtain ⟨lv, low, g, I⟩ := h.inv hok hv hid hB h127 hN32 hP0
  obtain ⟨pages, m, s, ks, H, hp, hlen, -, hlive, -⟩ := I.cutAt hok hv hid hB h127 A hop hf hspl h32 hV
  obtain ⟨d1, v1, w, -, r2, r3, -, r5⟩ := H.reopened hok hv hB h127 hN32 hid (fun _ => 0) (fun _ => 0) (fun _ => (0, 0)) false
  rw [hlen] at hn
  have hlt' : n < pages.length := by omega
  obtain ⟨p, p1, p2, -⟩ := r5.tab.sim.stored n (by rw [r5.min]; exact hn) hlt'
  rw [r3] at p1
  have hpg : pages[n] = (l.log.pages ++ [l.log.buf]).getD n [] := by
    have h1 : pages[n]? = (l.log.pages ++ [l.log.buf])[n]? := by
      rw [hp, List.getElem?_take, if_pos hlt]
    rw [List.getD_eq_getElem?_getD, ← h1, List.getElem?_eq_getElem hlt']
    rfl
  obtain ⟨q1, q2⟩ := H.locs n hn hlt' p p1
  refine ⟨p, p1, p2.trans hpg, ?_⟩
  intro i hi
  rcases q1 i hi with ⟨e1, e2⟩ | ⟨e, e1, e2, e3⟩
  · have hr : ∃ r ∈ (Log.mk pages []).live (Spec.recovered c.N c.B pages.length), r.1 = slotKey c p i :=
      ⟨_, mem_live.mpr (Or.inl ⟨n, hlt', hn, by simp only [← p2]; exact mem_recs.mpr ⟨i, hi, rfl⟩⟩), rfl⟩
    obtain ⟨r, r1, r2⟩ := hr
    have hno := I.tab.novar r (hlive r r1) (by rw [r2]; exact e2)
    rw [r2] at hno
    rw [hno]
    exact e1
  · have hvar := I.tab.vars e e1
    have hfst := I.first e e1
    rw [e2] at hvar hfst
    rw [hvar]
    simp only
    by_cases hg : first (slotKey c p i) < Spec.firstKept c.numVar c.B (Spec.writes V.log).length
    · exact Or.inl hg
    · right
      rw [e3]
      refine fetch_of hv (H.ents.ok e e1) ?_
      intro j j1 j2
      have hfin := q2 i hi e e1 e2
      have hj : j < (Spec.writes V.log).length := by
        by_contra hcon
        have := Nat.mul_le_mul_right c.vcap (show (Spec.writes V.log).length ≤ j by omega)
        omega
      obtain ⟨pv, -, z2, z3, -⟩ := H.stored hv hid (j := j) (by omega) hj
      exact ⟨pv, z2, z3⟩

/-! ### The hypotheses are satisfiable -/

/-- An insert that completes a data page. -/
def demoWCut : VOp := .put 10 (dat 10) (some (blob 60 80))

/-- The life of `demoWLife`, two further inserts, then `demoWCut`, the power failing right after the data page was written. -/
def demoWCutB (Q : Nat) (first : Nat → Nat) (d : Data) (x : Idx) (v : Var) (_ : VLog) : Bool :=
  allowedWB demoW 1 1000 100 Q d v demoWCut && (stepV demoW d x v demoWCut).check fun s =>
    let D := cutFrom demoW d.dev s.1.dev 10
    let V := (preVar demoW d v).dev
    decide ((Spec.writes D.log).length = 5 ∧ (Spec.writes V.log).length = 9 ∧ first 7 = 6 ∧ first 8 = 7) &&
      (match D.file 4 with
      | some p => decide (slotKey demoW p 0 = 8 ∧ Spec.fetch demoW.pageSize demoW.vhdr demoW.numVar V.file (slotLoc demoW p 0) = some (blob 20 80))
      | none => false)

/-- The power fails in the second session, after data page 4 was written: it is found, and so are the bytes of its record 8,
although the variable data file has wrapped twice and pages before page 6 are not kept. -/
example : ∃ Q first d x v l D V, LifeW demoW 1 1000 100 3 5 Q first d x v l ∧ AllowedW demoW 1 1000 100 Q d v demoWCut ∧ demoWCut ≠ .flush ∧
    PowerFail demoW d x v demoWCut D V ∧ (Spec.writes D.log).length ≤ demoW.N ∧ (Spec.writes D.log).length = 5 ∧ (Spec.writes V.log).length = 9 ∧
    Spec.recovered demoW.N demoW.B 5 = 0 ∧ Spec.firstKept demoW.numVar demoW.B 9 = 6 ∧ first 7 = 6 ∧ first 8 = 7 ∧
    ∃ p, D.file 4 = some p ∧ slotKey demoW p 0 = 8 ∧
      Spec.fetch demoW.pageSize demoW.vhdr demoW.numVar V.file (slotLoc demoW p 0) = some (blob 20 80) := by
  obtain ⟨Q0, f0, d0, x0, v0, l0, h0, hW⟩ := demoWLife_ok (W := fun Q first d x v l => lifeWB demoW 1 1000 100 demoWCutB Q first d x v l
    [.put 8 (dat 8) (some (blob 20 80)), .put 9 (dat 9) (some (blob 3 90))]) (by decide +kernel)
  obtain ⟨Q, first, d, x, v, l, h, hW⟩ := lifeWB_ok _ _ _ _ _ _ _ h0 hW
  rw [demoWCutB, Bool.and_eq_true] at hW
  obtain ⟨⟨d', x', v', o⟩, e, hb⟩ := Res.check_ok hW.2
  rw [Bool.and_eq_true, decide_eq_true_eq] at hb
  obtain ⟨⟨b1, b2, b3, b4⟩, b5⟩ := hb
  refine ⟨Q, first, d, x, v, l, _, _, h, allowedWB_ok hW.1, by decide, PowerFail.putData 10 (dat 10) (some (blob 60 80)) 10 e, ?_, b1, b2,
    by decide, by decide, b3, b4, ?_⟩
  · rw [b1]; decide
  · cases hp : (cutFrom demoW d.dev d'.dev 10).file 4 with
    | none => simp [hp] at b5
    | some p => simp only [hp] at b5; exact ⟨p, rfl, of_decide_eq_true b5⟩

end EDB
