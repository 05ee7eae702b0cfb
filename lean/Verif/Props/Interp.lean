import Verif.Proofs.Interp
import Verif.Props.Estimate

/-!
# C62: the interpolation of the spline in `long double`

`splineFind` divides in `long double` and takes the integer part.  A rounded quotient can be the next integer, and then the
window of pages that is searched moves by one.  Where records are lost that way: Findings/Interp.lean.
-/

namespace EDB

open Spec (Log Op Out Rnd)

/-- C62 (`_partial`: the setting of `C61_lookup_partial`, and the format of `long double` has one bit more than the largest
product of a key difference and a page difference; without that the claim is false, `C62_false_float`, `C62_false_double`).

After every history the lookup with all floating point operations rounded, in any rounding mode, answers from the records
retained. -/
theorem C62_lookup_partial (r : Rnd 24) {b : Nat} (q : Rnd b) (c : Cfg) (lo K : Nat) (ops : List Op) (rb : Page)
    (sm : Nat → Nat × Nat) (x : Idx) (hE : Estimates r c) (hok : c.Ok K) (hB : Bounds c lo K ops.length) (hb : b ≤ 120)
    (hbits : 2 * ((K - lo) * (ops.length + c.maxErr)) ≤ 2 ^ b) (h8 : c.keySize ≤ 8) (h255 : c.maxRec ≤ 255)
    (hC : Client c lo K ops) (hS : NoStale c (Data.fresh c rb sm) x ops) :
    ∃ d L, runOps c (Data.fresh c rb sm) x ops = .ok (d, x) ∧
      L = Spec.logAfter c.maxRec Log.empty (history c (Data.fresh c rb sm) x ops) ∧
      ∀ key, key < K → (L.pages = [] → L.buf ≠ [] → (∃ a ∈ L.buf, a.1 ≤ key) ∧ ∃ b ∈ L.buf, key ≤ b.1) →
        ∃ d' code out, getQ r q c d key = .ok (d', code, out) ∧
          ((∃ v, Spec.lookup (L.live (Spec.dropped c.N c.B L.pages.length)) key = some v ∧ code = 0 ∧ out = some v) ∨
            (Spec.lookup (L.live (Spec.dropped c.N c.B L.pages.length)) key = none ∧ code = -1 ∧ out = none)) := by
  obtain ⟨d, e, T, hn, -⟩ := runOps_ok (m := 0) hok (Or.inl rfl) hB h255 (G := fun d x ops => NoStale c d x ops)
    (fun d L x op ops g _ hc => g.1 hc) (fun d L x op ops d' x' o g _ _ e => g.2 d' x' o e) ops (Data.fresh c rb sm) x
    Log.empty (fresh_table hok rb sm) (by simp [Data.fresh]) hC (by simp [Log.all, Log.empty]) hS
  have hn' : d.next ≤ ops.length := by simpa [Data.fresh] using hn
  obtain ⟨d2, L, e2, hL, hget⟩ := C61_lookup_partial r c lo K ops rb sm x hE hok hB h8 h255 hC hS
  rw [e] at e2
  cases e2
  refine ⟨d, L, e, hL, fun key hk hin => ?_⟩
  rw [getQ_eq q hb hok.cmp hB hbits hk T.sim hn']
  exact hget key hk hin

/-- C62 where `long double` has 64 significant bits (x86), with no condition beyond those of C02. -/
theorem C62_lookup_x87_partial (r : Rnd 24) (q : Rnd 64) (c : Cfg) (lo K : Nat) (ops : List Op) (rb : Page)
    (sm : Nat → Nat × Nat) (x : Idx) (hE : Estimates r c) (hok : c.Ok K) (hB : Bounds c lo K ops.length)
    (h8 : c.keySize ≤ 8) (h255 : c.maxRec ≤ 255)
    (hC : Client c lo K ops) (hS : NoStale c (Data.fresh c rb sm) x ops) :
    ∃ d L, runOps c (Data.fresh c rb sm) x ops = .ok (d, x) ∧
      L = Spec.logAfter c.maxRec Log.empty (history c (Data.fresh c rb sm) x ops) ∧
      ∀ key, key < K → (L.pages = [] → L.buf ≠ [] → (∃ a ∈ L.buf, a.1 ≤ key) ∧ ∃ b ∈ L.buf, key ≤ b.1) →
        ∃ d' code out, getQ r q c d key = .ok (d', code, out) ∧
          ((∃ v, Spec.lookup (L.live (Spec.dropped c.N c.B L.pages.length)) key = some v ∧ code = 0 ∧ out = some v) ∨
            (Spec.lookup (L.live (Spec.dropped c.N c.B L.pages.length)) key = none ∧ code = -1 ∧ out = none)) := by
  refine C62_lookup_partial r q c lo K ops rb sm x hE hok hB (by omega) ?_ h8 h255 hC hS
  have := hB.prod
  omega

/-! ### The hypotheses are satisfiable -/

/-- The hypotheses of C62 hold of a history that wraps the file even where `long double` is binary32. -/
example : Estimates binary32 (demoF binary32) ∧ (demoF binary32).Ok 1000 ∧
    Bounds (demoF binary32) 0 1000 (demoPuts ++ [Op.flush] ++ demoReads).length ∧
    2 * ((1000 - 0) * ((demoPuts ++ [Op.flush] ++ demoReads).length + (demoF binary32).maxErr)) ≤ 2 ^ 24 ∧
    Client (demoF binary32) 0 1000 (demoPuts ++ [Op.flush] ++ demoReads) ∧
    NoStale (demoF binary32) (Data.fresh (demoF binary32) (fun _ => 0) (fun _ => (0, 0))) noIdx
      (demoPuts ++ [Op.flush] ++ demoReads) := by
  obtain ⟨h1, h2, h3, h4, h5⟩ := demoF_setting
  exact ⟨h1, h2, h3, by show 2 * ((1000 - 0) * ((demoPuts ++ [Op.flush] ++ demoReads).length + demo.maxErr)) ≤ 2 ^ 24; decide, h4, h5⟩

end EDB
