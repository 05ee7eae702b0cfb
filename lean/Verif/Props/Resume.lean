import Verif.Model.VarLives
import Verif.Props.Rings
import Verif.Proofs.DemoRlc
import Verif.Proofs.LooseRing

/-!
# C68: the variable data file is taken up again where it stopped

Any number of power failures, each after any of the operations on the variable data file, also when the file has wrapped many
times.  The data file may be in any condition.
-/

namespace EDB

/-- Erasing pages leaves what they hold. -/
def Keeps (c : Cfg) : Prop := ∀ p, c.eraseFx (some p) = some p

/-- Opening a variable data file. -/
theorem LRing.opened {c : Cfg} {l : List Ev} {n a : Nat} (h : LRing c.numVar c.B (Keeps c) l n a) (hB : 0 < c.B) (hd : c.B ∣ c.numVar)
    (hlt : c.B < c.numVar) (hNV : c.numVar < 2 ^ 32) (hk : c.keySize ≤ 8)
    (hfx : ∀ p, ∃ q, c.eraseFx (some p) = some q ∧ (pageId q = pageId p ∨ pageId q = 2 ^ 32 - 1)) (hc : CutOk c l) (d : Data) (q : Nat)
    (vrb : Page) (hv : Bool) :
    let r := recoverVar c d (Var.opening c ⟨Spec.image c.eraseFx l, l, q⟩ vrb hv)
    ((readPage d (d.min % c.N)).2 = true → r.2.2 = 0) ∧ r.1.next = d.next ∧
    (r.2.2 = 0 → r.2.1.dev = ⟨Spec.image c.eraseFx l, l, q⟩ ∧ LRing c.numVar c.B (Keeps c) l r.2.1.next r.2.1.avail ∧
      r.2.1.loc = r.2.1.next % c.numVar * c.pageSize + c.vhdr ∧
      (c.numVar < r.2.1.next + r.2.1.avail → ∀ ph p, (Spec.writes l)[r.2.1.next + r.2.1.avail - c.numVar]? = some (ph, p) →
        r.2.1.minRec % 256 ^ c.keySize = (leNat (rd p 4 c.keySize) + 1) % 256 ^ c.keySize)) := by
  have hN : 0 < c.numVar := by omega
  have hs : VSync (Var.opening c ⟨Spec.image c.eraseFx l, l, q⟩ vrb hv) := by
    intro ph h
    simp [Var.opening, Var.fresh] at h
  have hcount := h.count
  intro r
  rcases Nat.eq_zero_or_pos n with h0 | h0
  · subst h0
    have hsp := h.space hB hd
    have hrest := h.rest hB hd c.eraseFx hN
    have hr : r = (d, Var.opening c ⟨Spec.image c.eraseFx l, l, q⟩ vrb hv, 0) :=
      recoverVar_empty hs ⟨fun j hj => absurd hj (Nat.not_lt_zero _), fun j _ => hrest j (Nat.zero_le _)⟩
    rw [hr]
    refine ⟨fun _ => rfl, rfl, fun _ => ⟨rfl, ?_, ?_, ?_⟩⟩
    · have : a = c.numVar := by omega
      subst this
      exact h
    · show c.vhdr = 0 % c.numVar * c.pageSize + c.vhdr
      rw [Nat.zero_mod, Nat.zero_mul, Nat.zero_add]
    · intro hgt
      have : c.numVar < 0 + c.numVar := hgt
      omega
  · have ht : n % c.numVar = 0 → a = c.B → Keeps c := by
      intro h1 h2
      rcases hc.torn with h3 | h3
      · exact h3
      · exact absurd (h.torn hB hd hlt h1 h2 h0) h3
    have hview := h.view hB hd hN (by have := hc.few; omega) ht hfx id
    have hheld := (h.reopen ht).resumes hB hd hN (fx := c.eraseFx) id
    obtain ⟨u, u1, u2, u3, u4, u5⟩ := recoverVar_ring (d := d) hB hd hlt hNV (by have := hc.few; omega) h0 hs hview (by
      intro h1 p hp
      obtain ⟨⟨ph, p'⟩, hx⟩ : ∃ x, (Spec.writes l)[0]? = some x := ⟨_, List.getElem?_eq_getElem (by omega)⟩
      have hnf : n + foundSpace c.numVar c.B n = c.numVar := by
        unfold foundSpace; rw [if_pos (by omega)]; omega
      obtain ⟨g1, g2⟩ := hheld.held 0 ph p' hx (by omega)
      rw [Nat.zero_mod] at g1
      rw [g1] at g2 hx
      have h2 : Spec.image c.eraseFx l 0 = some p := hp
      rw [h2] at g2
      cases g2
      refine hc.lone p ?_
      match hw : Spec.writes l with
      | [] => rw [hw] at hcount; simp at hcount; omega
      | [x] => rw [hw] at hx; simp at hx; rw [hx]
      | _ :: _ :: _ => rw [hw] at hcount; simp at hcount; omega)
    have hr : r = _ := u5
    have hm := setMinRec_var c d u
    have hdn : (setMinRec c d u).1.next = d.next := by
      have hrp : (readPage d (d.min % c.N)).1.next = d.next := by
        unfold readPage
        split_ifs
        · rfl
        · split <;> rfl
      unfold setMinRec
      simp only
      split_ifs <;> first | rfl | exact hrp
    have hdn2 : r.1.next = d.next := by
      rw [hr]; split_ifs <;> exact hdn
    refine ⟨fun hdp => ?_, hdn2, ?_⟩
    · have : (setMinRec c d u).2.2 = true := by
        unfold setMinRec
        simp only
        rw [if_pos hdp]
        split_ifs <;> rfl
      rw [hr, if_pos this]
    · intro hr0
      by_cases hok : (setMinRec c d u).2.2 = true
      · rw [if_pos hok] at hr
        rw [hr]
        simp only
        rw [hm]
        simp only
        have un : u.next = n := by rw [u2]
        refine ⟨by rw [u2]; rfl, by rw [un]; exact h.reopen ht, by rw [un], ?_⟩
        rw [un]
        intro hgt ph p hx
        obtain ⟨g1, g2⟩ := hheld.held _ ph p hx (by omega)
        rw [g1] at g2
        have h2 : Spec.image c.eraseFx l ((n + foundSpace c.numVar c.B n - c.numVar) % c.numVar) = some u.rbuf := u3
        rw [g2] at h2
        cases h2
        unfold setMinRec
        rw [if_neg (by omega)]
        simp only
        obtain ⟨t, ht⟩ : (256 ^ c.keySize) ∣ 2 ^ 64 := by
          rw [show 256 = 2 ^ 8 by norm_num, ← Nat.pow_mul]
          exact Nat.pow_dvd_pow 2 (by omega)
        have hmm : u.minRec - u.minRec % 256 ^ c.keySize = 256 ^ c.keySize * (u.minRec / 256 ^ c.keySize) := by
          have := Nat.div_add_mod u.minRec (256 ^ c.keySize)
          omega
        unfold setLow
        rw [ht, Nat.mod_mul_right_mod, hmm, Nat.add_assoc, Nat.mul_add_mod]
      · rw [if_neg hok] at hr
        rw [hr] at hr0
        simp at hr0

theorem VarLives.ring {c : Cfg} {s : Trio} (h : VarLives c s) (hB : 0 < c.B) (hd : c.B ∣ c.numVar)
    (hlt : c.B < c.numVar) (hNV : c.numVar < 2 ^ 32) (hk : c.keySize ≤ 8)
    (hfx : ∀ p, ∃ q, c.eraseFx (some p) = some q ∧ (pageId q = pageId p ∨ pageId q = 2 ^ 32 - 1)) :
    VarRing c (LRing c.numVar c.B (Keeps c)) s.v := by
  induction h with
  | fresh rb rx rv sm hv => exact VarRing.start .nil rv hv
  | call h e ih =>
    exact VarRing.call ⟨hB, fun h ha p hp => h.write ha p hp, fun h => h.erase⟩ ih e
  | power h hl hc D q rb vrb sm hv x e ih =>
    obtain ⟨n, a, h1⟩ := ih.2.cut hl
    unfold reopenV at e
    simp only at e
    split_ifs at e with g1 g2
    · simp only [Prod.mk.injEq] at e
      exact absurd e.2.2 g1
    · have h2 := (h1.opened hB hd hlt hNV hk hfx hc (recover c D rb sm).1 q vrb hv).2.2
      rw [e] at h2
      obtain ⟨h3, h4, -⟩ := h2 rfl
      unfold VarRing
      simp only at h3 h4 ⊢
      rw [h3]
      exact ⟨rfl, h4⟩
    · cases e; exact VarRing.start .nil _ _

/-- C68 (`_partial`: the power failures of `CutOk`; erased pages can be read and hold the old number or the number 2^32 - 1,
otherwise `C68_false_unreadable`).  Whatever the client did and how often the power failed, the variable data file is a ring:
pages stay inside the file, are written in turn, and the counters continue it. -/
theorem C68_ring_partial (c : Cfg) (s : Trio) (hB : 0 < c.B) (hd : c.B ∣ c.numVar) (hlt : c.B < c.numVar) (hNV : c.numVar < 2 ^ 32)
    (hk : c.keySize ≤ 8)
    (hfx : ∀ p, ∃ q, c.eraseFx (some p) = some q ∧ (pageId q = pageId p ∨ pageId q = 2 ^ 32 - 1)) (h : VarLives c s) :
    (∀ ph p, Ev.write ph p ∈ s.v.dev.log → ph < c.numVar) ∧
    Spec.Even c.numVar (Spec.timesWritten s.v.dev.log) ∧
    Spec.Resumes c.numVar c.B s.v.dev.log s.v.dev.file s.v.next s.v.avail := by
  obtain ⟨h1, h2⟩ := h.ring hB hd hlt hNV hk hfx
  refine ⟨h2.inside (by omega), ?_, ?_⟩
  · intro i j hi hj
    rw [timesWritten_ring h2.ring, timesWritten_ring h2.ring]
    exact even_mod c.numVar _ i j hi hj
  · rw [h1]
    exact h2.resumes hB hd (by omega) id

/-- C68, the opening itself (`_partial` as above).  The data file has been recovered to `d` with result 0 and contains a page, or
record-level consistency is used.  Then opening the variable data file succeeds if the oldest data page can be read; and if it
succeeds, the ring is continued, new data goes to the beginning of the next page, and all data of keys larger than those of
the oldest page kept is taken for present. -/
theorem C68_reopen_partial (c : Cfg) (s : Trio) (hB : 0 < c.B) (hd : c.B ∣ c.numVar) (hlt : c.B < c.numVar) (hNV : c.numVar < 2 ^ 32)
    (hk : c.keySize ≤ 8)
    (hfx : ∀ p, ∃ q, c.eraseFx (some p) = some q ∧ (pageId q = pageId p ∨ pageId q = 2 ^ 32 - 1)) (h : VarLives c s)
    (l : List Ev) (hl : l <+: s.v.dev.log) (hc : CutOk c l) (D : Dev) (q : Nat) (rb vrb : Page) (sm : Nat → Nat × Nat) (hv : Bool)
    (d d' : Data) (v' : Var) (r : Int) (hD : recover c D rb sm = (d, 0)) (hne : 0 < d.next ∨ c.rlc = true)
    (e : reopenV c D ⟨Spec.image c.eraseFx l, l, q⟩ rb sm vrb hv = (d', v', r)) :
    ((readPage d (d.min % c.N)).2 = true → r = 0) ∧
    (r = 0 → Spec.Resumes c.numVar c.B l v'.dev.file v'.next v'.avail ∧
      v'.loc = v'.next % c.numVar * c.pageSize + c.vhdr ∧
      (c.numVar < v'.next + v'.avail → ∀ ph p, (Spec.writes l)[v'.next + v'.avail - c.numVar]? = some (ph, p) →
        v'.minRec % 256 ^ c.keySize = (leNat (rd p 4 c.keySize) + 1) % 256 ^ c.keySize)) := by
  obtain ⟨n, a, h1⟩ := (h.ring hB hd hlt hNV hk hfx).2.cut hl
  have h2 := h1.opened hB hd hlt hNV hk hfx hc d q vrb hv
  unfold reopenV at e
  rw [hD] at e
  simp only at e
  rw [if_neg (by simp), if_pos hne] at e
  rw [e] at h2
  simp only at h2
  obtain ⟨h3, -, h4⟩ := h2
  refine ⟨h3, fun h0 => ?_⟩
  obtain ⟨h5, h6, h7, h8⟩ := h4 h0
  refine ⟨?_, h7, h8⟩
  rw [h5]
  exact h6.resumes hB hd (by omega) id

/-! ### Examples -/

/-- Power fails after `k` operations on the variable data file (the data file has them all); the table is opened again. -/
def resumeAt (c : Cfg) (ops : List Spec.VOp) (k : Nat) : Res (Data × Var × Int) :=
  (runOpsV c (trio0 c).d (trio0 c).x (trio0 c).v ops).bind fun (d, _, v) =>
    .ok (reopenV c d.dev ⟨Spec.image c.eraseFx (v.dev.log.take k), v.dev.log.take k, 0⟩ (fun _ => 0) (fun _ => (0, 0)) (fun _ => 0) false)

/-- The counters then found: next page, space, location of new data, smallest key. -/
def counters (c : Cfg) (ops : List Spec.VOp) (k : Nat) : List Nat := match resumeAt c ops k with
  | .ok (_, v, 0) => [v.next, v.avail, v.loc, v.minRec % 256 ^ c.keySize]
  | _ => []

/-- Nine inserts, pages of four, power failing after any of the operations. -/
example : (List.range 13).map (counters demoW (trioOps false)) =
    [[0, 4, 8, 4294967295], [1, 3, 42, 25], [2, 2, 76, 25], [3, 1, 110, 25], [4, 0, 8, 25], [4, 0, 8, 25], [5, 1, 42, 26],
      [6, 2, 76, 46], [6, 2, 76, 46], [7, 1, 110, 46], [8, 0, 8, 46], [8, 0, 8, 46], [9, 1, 42, 66]] := by
  decide +kernel

theorem VarLives.ofCalls {c : Cfg} {s t : Trio} (h : VarLives c s) (e : Calls c s t) : VarLives c t := by
  induction e with
  | none => exact h
  | one _ e ih => exact ih.call e

/-- Nine inserts, power failure in the third round of the file (in the page just begun), nine more inserts. -/
def twoLives (c : Cfg) (k : Nat) : Res (Data × Idx × Var) :=
  (resumeAt c (trioOps false) k).bind fun (d, v, _) => runOpsV c d noIdx v ((List.range 9).flatMap fun i =>
    [.put (10 * i + 105) (dat (UInt8.ofNat i)) (some (blob (7 * i % 23) 3)), .flush])

/-- A device whose erased pages read as 0xFF. -/
def demoWF : Cfg := { demoW with eraseFx := toFF }

/-- The second life goes on with page number 9, at position 1, and erases the blocks in turn. -/
example : (twoLives demoWF 12).check (fun (_, _, v) => v.next = 18 ∧ v.avail = 0 ∧ places (v.dev.log.drop 12) =
    [(true, 1, 2), (false, 2, 4), (true, 2, 3), (true, 3, 4), (false, 0, 2), (true, 0, 1), (true, 1, 2), (false, 2, 4),
      (true, 2, 3), (true, 3, 4), (false, 0, 2), (true, 0, 1), (true, 1, 2)]) = true := by
  decide +kernel

/-- The theorems apply to it. -/
example : ∃ s, VarLives demoWF s ∧ s.v.next = 18 ∧ Spec.Resumes 4 2 s.v.dev.log s.v.dev.file s.v.next s.v.avail := by
  have h1 : (runOpsV demoWF (trio0 demoWF).d (trio0 demoWF).x (trio0 demoWF).v (trioOps false)).check (fun (_, _, v) =>
      v.dev.log.getLast? matches some (.write 0 _) && (Spec.writes v.dev.log).length == 9 && v.dev.log.length == 12) = true := by
    decide +kernel
  obtain ⟨⟨d, x, v⟩, e1, c1⟩ := Res.check_ok h1
  have h2 : (resumeAt demoWF (trioOps false) 12).check (fun r => r.2.2 == 0) = true := by decide +kernel
  obtain ⟨⟨d', v', r⟩, e2, c2⟩ := Res.check_ok h2
  have h3 : (twoLives demoWF 12).check (fun (_, _, v) => v.next == 18) = true := by decide +kernel
  obtain ⟨⟨d2, x2, v2⟩, e3, c3⟩ := Res.check_ok h3
  simp only [Bool.and_eq_true, beq_iff_eq] at c1 c2 c3
  subst c2
  unfold resumeAt at e2
  unfold twoLives at e3
  rw [show resumeAt demoWF (trioOps false) 12 = .ok (d', v', 0) from e2] at e3
  rw [e1] at e2
  have L0 : VarLives demoWF (trio0 demoWF) := .fresh _ _ _ _ _
  have L1 := L0.ofCalls (Calls.ofOpsV _ _ _ _ _ _ _ _ (Calls.none _) e1)
  have e2 := Res.ok.inj e2
  have L2 := L1.power (l := v.dev.log.take 12) (List.take_prefix _ _) ⟨by
      rw [List.take_of_length_le (by omega)]; omega, by
      rw [List.take_of_length_le (by omega)]
      intro p hp
      rw [hp] at c1
      simp at c1, Or.inr (by
      rw [List.take_of_length_le (by omega)]
      intro hl
      rw [hl] at c1
      simp at c1)⟩ d.dev 0 _ _ _ _ noIdx e2
  have L3 := L2.ofCalls (Calls.ofOpsV _ _ _ _ _ _ _ _ (Calls.none _) e3)
  refine ⟨_, L3, c3, (C68_ring_partial demoWF _ (by decide) (by decide) (by decide) (by decide) (by decide) ?_ L3).2.2⟩
  exact fun p => ⟨_, rfl, Or.inr (by show pageId (fun _ => 255) = _; decide)⟩

end EDB
