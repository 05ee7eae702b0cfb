import Verif.Proofs.RlcPut
import Verif.Proofs.Life

/-! Helper lemmas: opening a data file with record-level consistency. -/

namespace EDB

open Spec (Log KeepsPermanent)

/-- The read cache holds what is stored, or a page of which nobody asks. -/
def FreshX (X : Nat → Prop) (d : Data) : Prop := ∀ ph, d.buffered = some ph → ¬ X ph → d.dev.file ph = some d.rbuf

section
variable {X : Nat → Prop} {d : Data} {ph : Nat}

theorem Fresh.toX (F : Fresh d) : FreshX X d := fun ph h _ => F ph h

theorem FreshX.mono {Y : Nat → Prop} (F : FreshX X d) (h : ∀ ph, X ph → Y ph) : FreshX Y d :=
  fun ph h1 h2 => F ph h1 (fun hx => h2 (h ph hx))

theorem readX_some {q : Page} (F : FreshX X d) (hX : ¬ X ph) (h : d.dev.file ph = some q) :
    (readPage d ph).2 = true ∧ (readPage d ph).1.rbuf = q ∧ (readPage d ph).1.buffered = some ph := by
  unfold readPage
  by_cases hb : d.buffered = some ph
  · rw [if_pos hb]
    have := F ph hb hX
    rw [h] at this
    cases this
    exact ⟨rfl, rfl, hb⟩
  · rw [if_neg hb, h]
    exact ⟨rfl, rfl, rfl⟩

theorem readX_none (F : FreshX X d) (hX : ¬ X ph) (h : d.dev.file ph = none) : readPage d ph = (d, false) := by
  unfold readPage
  by_cases hb : d.buffered = some ph
  · have := F ph hb hX
    rw [h] at this
    cases this
  · rw [if_neg hb, h]

theorem readX_fresh (F : FreshX X d) : FreshX X (readPage d ph).1 := by
  unfold readPage
  by_cases hb : d.buffered = some ph
  · rw [if_pos hb]; exact F
  · rw [if_neg hb]
    cases h : d.dev.file ph with
    | none => exact F
    | some q =>
      intro ph' h' _
      simp only [Option.some.injEq] at h'
      subst h'
      exact h

/-- Reading a page that may or may not be there. -/
theorem readX_opt (F : FreshX X d) (hX : ¬ X ph) : (readPage d ph).2 = (d.dev.file ph).isSome ∧
    (∀ q, d.dev.file ph = some q → (readPage d ph).1.rbuf = q) := by
  cases h : d.dev.file ph with
  | none => rw [readX_none F hX h]; exact ⟨rfl, by simp⟩
  | some q =>
    obtain ⟨r1, r2, _⟩ := readX_some F hX h
    refine ⟨r1, ?_⟩
    intro q' hq'
    cases hq'
    exact r2

end

section
variable {c : Cfg} {K P : Nat} {ps : List Page}

/-! ### The newest permanent page -/

/-- The search for the first block that starts with a data page. -/
theorem probe_ok {file : Nat → Option Page} {b J : Nat} {Q : Nat → Prop} (hB : 0 < c.B)
    (hJ : ∀ pos, c.B ∣ pos → pos ≤ J → ∃ q, file pos = some q ∧
      (looksValid c q pos = true → pageId q = b + pos ∧ Q pos) ∧ (pos = J → looksValid c q pos = true)) (hJd : c.B ∣ J) :
    ∀ (k : Nat) (d : Data) (pos : Nat), c.B ∣ pos → pos ≤ J → J < pos + k * c.B → d.dev.file = file → Fresh d →
      (∀ q, file pos = some q → d.rbuf = q) →
      ∃ p0 d', pos ≤ p0 ∧ p0 ≤ J ∧ Q p0 ∧ probe c k d pos true = ⟨d', p0 + 1, some (b + p0), (file (p0 + 1)).isSome⟩ ∧
        SameButCache d d' ∧ Fresh d' ∧ (∀ q, file (p0 + 1) = some q → d'.rbuf = q) := by
  intro k
  induction k with
  | zero => intro d pos _ h1 h2; omega
  | succ k ih =>
    intro d pos hd h1 h2 hf F hr
    obtain ⟨q, q1, q2, q3⟩ := hJ pos hd h1
    have hrb := hr q q1
    unfold probe
    rw [if_pos rfl]
    by_cases hv : looksValid c q pos = true
    · obtain ⟨v1, v2⟩ := q2 hv
      rw [hrb, if_pos hv]
      obtain ⟨r1, r2⟩ := readX_opt (X := fun _ => False) (ph := pos + 1) F.toX id
      refine ⟨pos, _, le_refl _, h1, v2, ?_, readPage_same d (pos + 1), readPage_fresh F, ?_⟩
      · simp only
        rw [r1, hf, v1]
      · rw [hf] at r2
        exact r2
    · have hne : pos ≠ J := fun h => hv (q3 h)
      have hnext : pos + c.B ≤ J := by
        obtain ⟨i, hi⟩ := hd
        obtain ⟨j, hj⟩ := hJd
        rw [hi, hj] at h1 hne ⊢
        have : i < j := by
          rcases Nat.lt_or_ge i j with h | h
          · exact h
          · have := Nat.mul_le_mul_left c.B h
            omega
        have := Nat.mul_le_mul_left c.B this
        rw [Nat.mul_succ] at this
        exact this
      have hd2 : c.B ∣ pos + c.B := (Nat.dvd_add_right hd).mpr (dvd_refl _)
      obtain ⟨q', q1', _⟩ := hJ (pos + c.B) hd2 hnext
      rw [hrb, if_neg hv]
      obtain ⟨r1, r2⟩ := readX_opt (X := fun _ => False) (ph := pos + c.B) F.toX id
      rw [hf] at r1 r2
      simp only
      rw [r1, q1']
      obtain ⟨p0, d', g1, g2, g3, g4, g5, g6, g7⟩ := ih (readPage d (pos + c.B)).1 (pos + c.B) hd2 hnext
        (by rw [Nat.add_mul] at h2; omega) (by rw [readPage_file]; exact hf) (readPage_fresh F) r2
      exact ⟨p0, d', by omega, g2, g3, g4, (readPage_same d _).trans g5, g6, g7⟩

/-- The newest permanent page is found. -/
theorem newest_ok (G : RlcGeo c) {S fr : Nat} {t : Option Page} {file : Nat → Option Page} (h127 : c.maxRec ≤ 127)
    (hP32 : P ≤ 2 ^ 32) (I : RImg c P ps S fr t file) (hne : ps ≠ []) {d : Data} (F : Fresh d) (hf : d.dev.file = file) :
    ∃ d' top more, 0 < top ∧ top ≤ c.N ∧ top % c.N = ps.length % c.N ∧ top % c.B = ps.length % c.B ∧
      recoverRlc c d = rlcBoundary c d' top (some (ps.length - 1)) ∧ SameButCache d d' ∧ Fresh d' ∧ more = (file top).isSome := by
  have hB := G.B0
  have h4 := G.four
  have hN := G.N0
  have hl0 : 0 < ps.length := List.length_pos_iff.mpr hne
  have hhi := I.hi
  have hlo := I.lo
  have hlt := I.lt
  obtain ⟨b, top, hb, hlen, ht0, htN⟩ : ∃ b top, b % c.N = 0 ∧ ps.length = b + top ∧ 0 < top ∧ top ≤ c.N := by
    have h1 := Nat.div_add_mod (ps.length - 1) c.N
    have h3 := Nat.mod_lt (ps.length - 1) hN
    exact ⟨c.N * ((ps.length - 1) / c.N), (ps.length - 1) % c.N + 1, Nat.mul_mod_right _ _, by omega, by omega, by omega⟩
  have hbB : c.B ∣ b := dvd_trans G.dvd (Nat.dvd_of_mod_eq_zero hb)
  have hmodN : ps.length % c.N = top % c.N := by
    obtain ⟨k, hk⟩ := Nat.dvd_of_mod_eq_zero hb
    rw [hlen, hk, Nat.mul_add_mod]
  have hmodB : ps.length % c.B = top % c.B := by
    obtain ⟨k, hk⟩ := hbB
    rw [hlen, hk, Nat.mul_add_mod]
  have hmod : ∀ x, x < c.N → (b + x) % c.N = x := by
    intro x hx
    obtain ⟨k, hk⟩ := Nat.dvd_of_mod_eq_zero hb
    rw [hk, Nat.mul_add_mod, Nat.mod_eq_of_lt hx]
  have hmod2 : ∀ x, x < c.N → (b + c.N + x) % c.N = x := by
    intro x hx
    rw [show b + c.N + x = b + x + c.N by omega, Nat.add_mod_right, hmod x hx]
  -- the blocks that hold nothing of this lap
  obtain ⟨J, hJ⟩ : ∃ J, J = S + 2 * c.B - (b + c.N) := ⟨_, rfl⟩
  have hJd : c.B ∣ J := by
    rw [hJ]
    exact Nat.dvd_sub ((Nat.dvd_add_right I.dvd).mpr (Dvd.intro_left _ rfl)) ((Nat.dvd_add_right hbB).mpr G.dvd)
  have hJ3 : J ≤ 3 * c.B := by omega
  have hJt : J < top := by omega
  have hprobe : ∀ pos, c.B ∣ pos → pos ≤ J → ∃ q, file pos = some q ∧
      (looksValid c q pos = true → pageId q = b + pos ∧ ∀ l (h : l < ps.length), b + pos ≤ l → file (l % c.N) = some ps[l]) ∧
      (pos = J → looksValid c q pos = true) := by
    intro pos hd hle
    rcases Nat.lt_or_ge pos J with h | h
    · have hn0 : file pos ≠ none := by
        have := I.old (b + c.N + pos) (by omega) (by omega) (by omega)
        rw [hmod2 pos (by omega)] at this
        exact this
      obtain ⟨q, hq⟩ := Option.ne_none_iff_exists'.mp hn0
      refine ⟨q, hq, ?_, by omega⟩
      intro hv
      unfold looksValid at hv
      simp only [gt_iff_lt, decide_eq_true_eq] at hv
      have hq' : file ((b + c.N + pos) % c.N) = some q := by rw [hmod2 pos (by omega)]; exact hq
      rcases I.junk (b + c.N + pos) (by omega) (by omega) q hq' with j | j | j
      · refine ⟨by omega, ?_⟩
        intro l hl hl2
        refine I.first (b + c.N + pos) (by omega) (by omega) ?_ q hq' j ?_ l hl (by omega)
        · exact (Nat.dvd_add_right ((Nat.dvd_add_right hbB).mpr G.dvd)).mpr hd
        · rcases Nat.eq_zero_or_pos (pageCount q) with h0 | h0
          · rw [h0] at hv
            exact absurd hv.2.1 (by decide)
          · exact h0
      · have := j.1
        omega
      · exact absurd (by rw [hmod2 pos (by omega)]; exact hv.1) j.2
    · have : pos = J := by omega
      subst this
      have hlive : ∀ l (h : l < ps.length), b + pos ≤ l → file (l % c.N) = some ps[l] :=
        fun l h h' => I.live l h (by omega)
      have h0 := hlive (b + pos) (by omega) (le_refl _)
      rw [hmod pos (by omega)] at h0
      have hcnt := I.cnt (ps[b + pos]'(by omega)) (List.getElem_mem _)
      refine ⟨_, h0, fun _ => ⟨I.ids _ _, hlive⟩, fun _ => ?_⟩
      unfold looksValid toInt8
      rw [I.ids]
      simp only [gt_iff_lt, decide_eq_true_eq]
      rw [Nat.mod_eq_of_lt (show pageCount (ps[b + pos]'(by omega)) < 256 by omega), if_pos (by omega)]
      exact ⟨hmod pos (by omega), by omega, by omega⟩
  obtain ⟨q0, hq0, _⟩ := hprobe 0 (dvd_zero _) (Nat.zero_le _)
  obtain ⟨a1, a2⟩ := readX_opt (X := fun _ => False) (ph := 0) F.toX id
  rw [hf] at a1 a2
  obtain ⟨p0, d1, g1, g2, g3, g4, g5, g6, g7⟩ := probe_ok (Q := fun pos => ∀ l (h : l < ps.length), b + pos ≤ l → file (l % c.N) = some ps[l])
    hB hprobe hJd 4 (readPage d 0).1 0 (dvd_zero _) (Nat.zero_le _) (by omega) (by rw [readPage_file]; exact hf)
    (readPage_fresh F) a2
  have E1 := (readPage_same d 0).trans g5
  have hstop : top < c.N → ∀ q, file top = some q → pageId q ≠ b + top := by
    intro h q hq hid
    have := I.mine ps.length (le_refl _) (by omega) q (by rw [hmodN, Nat.mod_eq_of_lt h]; exact hq) (by omega)
    omega
  obtain ⟨d2, e1, e2, e3⟩ := follow_ok (c := c) (p0 := p0) hlen htN hb (by omega) I.ids (fun ph h hp => by
      have := g3 (b + ph) (by omega) (by omega)
      rw [hmod ph (by omega)] at this
      exact this) hstop c.N d1 (p0 + 1) (by omega) (by omega) (by omega) (by omega) (by rw [E1.dev]; exact hf) g6 g7
  refine ⟨d2, top, (file top).isSome, ht0, htN, hmodN.symm, hmodB.symm, ?_, E1.trans e2, e3, rfl⟩
  unfold recoverRlc
  simp only
  rw [a1, hq0]
  simp only [Option.isSome_some]
  rw [g4]
  simp only
  rw [show b + p0 = b + (p0 + 1) - 1 by omega, e1]
  simp only
  rw [show b + top - 1 = ps.length - 1 by omega]

/-! ### The newest temporary page -/

/-- No temporary page. -/
theorem rlcScan_none {X : Nat → Prop} {file : Nat → Option Page} {S : Nat} {want : Nat → Bool}
    (hX : ∀ i, i < 2 * c.B → ¬ X ((S + i) % c.N))
    (hw : ∀ i, i < 2 * c.B → ∀ q, file ((S + i) % c.N) = some q → want (pageId q) = false) :
    ∀ (n : Nat) (d : Data) (i : Nat) (more : Bool), n + i = 2 * c.B → d.dev.file = file → FreshX X d →
      (0 < n → more = (file ((S + i) % c.N)).isSome ∧ ∀ q, file ((S + i) % c.N) = some q → d.rbuf = q) →
      ∃ d', rlcScan c want n d ((S + i) % c.N) i none more = (d', none) ∧ SameButCache d d' ∧ FreshX X d' := by
  intro n
  induction n with
  | zero => intro d i more _ _ F _; exact ⟨d, rfl, SameButCache.refl d, F⟩
  | succ n ih =>
    intro d i more hi hf F hr
    obtain ⟨r1, r2⟩ := hr (by omega)
    unfold rlcScan
    cases hq : file ((S + i) % c.N) with
    | none =>
      rw [hq] at r1
      rw [r1]
      exact ⟨d, rfl, SameButCache.refl d, F⟩
    | some q =>
      rw [hq] at r1
      rw [r1]
      simp only [Option.isSome_some, if_true]
      rw [r2 q hq, hw i (by omega) q hq]
      simp only [Bool.false_eq_true, if_false, Nat.mod_add_mod]
      obtain ⟨d', e1, e2, e3⟩ := ih (readPage d ((S + i + 1) % c.N)).1 (i + 1) (readPage d ((S + i + 1) % c.N)).2 (by omega)
        (by rw [readPage_file]; exact hf) (readX_fresh F) (by
          intro hn
          have := readX_opt (ph := (S + (i + 1)) % c.N) F (hX (i + 1) (by omega))
          rw [hf] at this
          exact this)
      exact ⟨d', e1, (readPage_same d _).trans e2, e3⟩

/-- The temporary page `p` at offset `j` has the most records. -/
theorem rlcScan_some {X : Nat → Prop} {file : Nat → Option Page} {S j : Nat} {p : Page} {want : Nat → Bool}
    (hX : ∀ i, i < 2 * c.B → ¬ X ((S + i) % c.N)) (hj : j < 2 * c.B)
    (hp : file ((S + j) % c.N) = some p) (hwp : want (pageId p) = true)
    (hread : ∀ i, i < j → file ((S + i) % c.N) ≠ none)
    (hw : ∀ i, i < 2 * c.B → i ≠ j → ∀ q, file ((S + i) % c.N) = some q → want (pageId q) = true → pageCount q < pageCount p) :
    ∀ (n : Nat) (d : Data) (i : Nat) (best : Option (Nat × Nat)) (more : Bool), n + i = 2 * c.B → d.dev.file = file → FreshX X d →
      (0 < n → more = (file ((S + i) % c.N)).isSome ∧ ∀ q, file ((S + i) % c.N) = some q → d.rbuf = q) →
      (i ≤ j → ∀ m k, best = some (m, k) → m < pageCount p) → (j < i → best = some (pageCount p, j)) →
      ∃ d', rlcScan c want n d ((S + i) % c.N) i best more = (d', some (pageCount p, j)) ∧ SameButCache d d' ∧ FreshX X d' := by
  intro n
  induction n with
  | zero =>
    intro d i best more hi _ F _ _ h
    have := h (by omega)
    subst this
    exact ⟨d, rfl, SameButCache.refl d, F⟩
  | succ n ih =>
    intro d i best more hi hf F hr hb1 hb2
    obtain ⟨r1, r2⟩ := hr (by omega)
    unfold rlcScan
    cases hq : file ((S + i) % c.N) with
    | none =>
      rw [hq] at r1
      rw [r1]
      have hji : j < i := by
        rcases Nat.lt_trichotomy i j with h | h | h
        · exact absurd hq (hread i h)
        · rw [h, hp] at hq; cases hq
        · exact h
      rw [hb2 hji]
      exact ⟨d, rfl, SameButCache.refl d, F⟩
    | some q =>
      rw [hq] at r1
      rw [r1]
      simp only [Option.isSome_some, if_true]
      rw [r2 q hq]
      simp only [Nat.mod_add_mod]
      refine Exists.imp (fun d' h => ⟨h.1, (readPage_same d _).trans h.2.1, h.2.2⟩)
        (ih (readPage d ((S + i + 1) % c.N)).1 (i + 1) _ (readPage d ((S + i + 1) % c.N)).2 (by omega)
        (by rw [readPage_file]; exact hf) (readX_fresh F) (by
          intro hn
          have := readX_opt (ph := (S + (i + 1)) % c.N) F (hX (i + 1) (by omega))
          rw [hf] at this
          exact this) ?_ ?_)
      · intro hij m k
        have hne : i ≠ j := by omega
        have hb := hb1 (by omega)
        by_cases hwq : want (pageId q) = true
        · have hlt := hw i (by omega) hne q hq hwq
          rw [if_pos hwq]
          cases best with
          | none => intro h; cases h; exact hlt
          | some mk =>
            obtain ⟨m0, k0⟩ := mk
            simp only
            split_ifs
            · intro h; cases h; exact hlt
            · intro h; cases h; exact hb _ _ rfl
        · rw [if_neg hwq]
          exact hb m k
      · intro hij
        by_cases hijj : i = j
        · subst hijj
          rw [hp] at hq
          cases hq
          rw [if_pos hwp]
          have hb := hb1 (le_refl _)
          cases best with
          | none => rfl
          | some mk =>
            obtain ⟨m0, k0⟩ := mk
            simp only
            rw [if_pos (hb _ _ rfl)]
        · rw [hb2 (by omega)]
          by_cases hwq : want (pageId q) = true
          · have hlt := hw i (by omega) hijj q hq hwq
            rw [if_pos hwq]
            simp only
            rw [if_neg (by omega)]
          · rw [if_neg hwq]

/-! ### The counters -/

theorem splineFromX_ok {X : Nat → Prop} {file : Nat → Option Page} : ∀ (qs : List Page) (d : Data) (pg : Nat),
    d.dev.file = file → FreshX X d → pg + qs.length < 2 ^ 32 →
    (∀ i (h : i < qs.length), file ((pg + i) % c.N) = some qs[i] ∧ ¬ X ((pg + i) % c.N)) →
    ∃ d', splineFrom c qs.length d pg = d' ∧ FreshX X d' ∧ SameButCache { d with spl := addPages c d.spl qs pg } d' ∧
      (∀ q, qs.getLast? = some q → d'.rbuf = q ∧ d'.buffered = some ((pg + qs.length - 1) % c.N)) := by
  intro qs
  induction qs with
  | nil => intro d pg _ F _ _; exact ⟨d, rfl, F, SameButCache.refl d, by simp⟩
  | cons q t ih =>
    intro d pg hf F h32 hq
    rw [List.length_cons] at h32
    have h0 := hq 0 (by simp)
    simp only [List.getElem_cons_zero, Nat.add_zero] at h0
    obtain ⟨r1, r2, r3⟩ := readX_some F h0.2 (show d.dev.file (pg % c.N) = some q by rw [hf]; exact h0.1)
    have r4 := readX_fresh (ph := pg % c.N) F
    have E := readPage_same d (pg % c.N)
    obtain ⟨d', e1, e2, e3, e4⟩ := ih { (readPage d (pg % c.N)).1 with
        spl := (readPage d (pg % c.N)).1.spl.add (pageMinKey c (readPage d (pg % c.N)).1.rbuf) pg } (pg + 1)
        (by show (readPage d (pg % c.N)).1.dev.file = file
            rw [readPage_file]; exact hf) r4 (by omega) (by
          intro i hi
          have := hq (i + 1) (by simp; omega)
          simpa [Nat.add_assoc, Nat.add_comm 1 i] using this)
    refine ⟨d', ?_, e2, ?_, ?_⟩
    · rw [List.length_cons, ← e1]
      show splineFrom c t.length _ ((pg + 1) % 2 ^ 32) = _
      rw [Nat.mod_eq_of_lt (show pg + 1 < 2 ^ 32 by omega)]
    · rw [r2] at e3
      exact ⟨e3.dev.trans E.dev, e3.wbuf.trans E.wbuf, e3.next.trans E.next, e3.min.trans E.min, e3.avail.trans E.avail,
        by rw [e3.spl]; show addPages c ((readPage d (pg % c.N)).1.spl.add _ _) _ _ = _; rw [E.spl]; rfl,
        e3.rlcNext.trans E.rlcNext, e3.rlcStart.trans E.rlcStart⟩
    · intro x hx
      cases t with
      | nil =>
        simp only [List.getLast?_singleton, Option.some.injEq] at hx
        subst hx
        simp only [splineFrom, List.length_nil] at e1
        subst e1
        simp only [List.length_cons, List.length_nil]
        exact ⟨r2, r3⟩
      | cons y ys =>
        rw [List.getLast?_cons_cons] at hx
        obtain ⟨g1, g2⟩ := e4 x hx
        refine ⟨g1, ?_⟩
        rw [g2, List.length_cons (a := q)]
        congr 2
        omega

theorem setCountersX_ok {X : Nat → Prop} {file : Nat → Option Page} {res : Nat} (hbs : c.binSearch = false) (hN32 : c.N < 2 ^ 32)
    (h32 : ps.length < 2 ^ 32) (ids : ∀ l (h : l < ps.length), pageId ps[l] = l) {d : Data} (F : FreshX X d)
    (hf : d.dev.file = file) {m : Nat} (hm : m < ps.length) (hw : ps.length + res ≤ m + c.N)
    (live : ∀ l (h : l < ps.length), m ≤ l → file (l % c.N) = some ps[l] ∧ ¬ X (l % c.N)) :
    ∃ d', setCounters c d (ps.length - 1) (m % c.N) res = d' ∧ d'.dev = d.dev ∧ d'.wbuf = d.wbuf ∧
      d'.next = ps.length ∧ d'.min = m ∧ d'.next + d'.avail + res = m + c.N ∧
      d'.spl = addPages c d.spl (ps.drop m) m ∧ d'.rlcNext = d.rlcNext ∧ d'.rlcStart = d.rlcStart ∧
      d'.buffered = some ((ps.length - 1) % c.N) ∧ d'.rbuf = ps[ps.length - 1]'(by omega) := by
  have hl1 : ps.length - 1 + 1 = ps.length := by omega
  unfold setCounters
  simp only [hl1, Nat.mod_eq_of_lt h32, hbs, Bool.false_eq_true, if_false]
  have F0 : FreshX X { d with next := ps.length } := F
  have E1 := readPage_same { d with next := ps.length } (m % c.N)
  have lm := live m hm (le_refl _)
  obtain ⟨a1, a2, a3⟩ := readX_some F0 lm.2 (show d.dev.file (m % c.N) = some ps[m] by rw [hf]; exact lm.1)
  have a4 := readX_fresh (ph := m % c.N) F0
  generalize readPage { d with next := ps.length } (m % c.N) = r1 at *
  have hmin : pageId r1.1.rbuf = m := by rw [a2, ids]
  rw [hmin]
  have hav : u32 ((c.N : Int) + m - (ps.length - 1 : Nat) - 1 - (res : Nat)) = m + c.N - ps.length - res := by
    unfold u32
    rw [Int.emod_eq_of_lt (by omega) (by omega)]
    omega
  rw [hav]
  have hn1 : r1.1.next = ps.length := E1.next
  have hsub : u32sub r1.1.next 1 = ps.length - 1 := by unfold u32sub; rw [hn1, if_pos (by omega)]
  rw [hsub]
  have F1 : FreshX X { r1.1 with min := m, avail := m + c.N - ps.length - res } := a4
  have hf1 : r1.1.dev.file = file := by rw [E1.dev]; exact hf
  have F2 := readX_fresh (ph := (ps.length - 1) % c.N) F1
  have E2 := readPage_same { r1.1 with min := m, avail := m + c.N - ps.length - res } ((ps.length - 1) % c.N)
  generalize readPage { r1.1 with min := m, avail := m + c.N - ps.length - res } ((ps.length - 1) % c.N) = r2 at *
  have hn2 : r2.1.next = ps.length := E2.next.trans hn1
  have hm2 : r2.1.min = m := E2.min
  have hsub2 : u32sub r2.1.next r2.1.min = (ps.drop m).length := by
    unfold u32sub; rw [hn2, hm2, if_pos (by omega), List.length_drop]
  rw [hsub2, hm2]
  obtain ⟨d', e1, e2, e3, e4⟩ := splineFromX_ok (c := c) (file := file) (ps.drop m) r2.1 m (by rw [E2.dev]; exact hf1) F2
    (by rw [List.length_drop]; omega) (by
      intro i hi
      rw [List.length_drop] at hi
      rw [List.getElem_drop]
      exact live _ _ (by omega))
  obtain ⟨g1, g2⟩ := e4 (ps[ps.length - 1]'(by omega)) (by
    rw [List.getLast?_eq_getElem?, List.length_drop, List.getElem?_drop, show m + (ps.length - m - 1) = ps.length - 1 by omega]
    exact List.getElem?_eq_getElem _)
  refine ⟨d', e1, ?_, ?_, ?_, ?_, ?_, ?_, ?_, ?_, ?_, g1⟩
  · rw [e3.dev]; exact E2.dev.trans E1.dev
  · rw [e3.wbuf]; exact E2.wbuf.trans E1.wbuf
  · rw [e3.next]; exact hn2
  · rw [e3.min]; exact hm2
  · have : d'.avail = m + c.N - ps.length - res := e3.avail.trans E2.avail
    have : d'.next = ps.length := e3.next.trans hn2
    omega
  · rw [e3.spl]
    show addPages c r2.1.spl _ _ = _
    rw [E2.spl, E1.spl]
  · rw [e3.rlcNext]; exact E2.rlcNext.trans E1.rlcNext
  · rw [e3.rlcStart]; exact E2.rlcStart.trans E1.rlcStart
  · rw [g2, List.length_drop, show m + (ps.length - m) - 1 = ps.length - 1 by omega]

/-- The physical pages without permanent data. -/
def JunkAt (c : Cfg) (n u ph : Nat) : Prop := ∃ a, n ≤ a ∧ a < u ∧ ph = a % c.N

theorem not_junk (G : RlcGeo c) {n S l : Nat} (hS : S ≤ n + c.B) (h1 : l < n) (h2 : S + 2 * c.B ≤ l + c.N) :
    ¬ JunkAt c n (S + 2 * c.B) (l % c.N) := by
  rintro ⟨a, a1, a2, a3⟩
  have := mod_inj_window (by omega) (by have := G.four; have := G.B0; omega) a3
  omega

/-- The number of the newest permanent page. -/
def lastPage (n : Nat) : Option Nat := if n = 0 then none else some (n - 1)

/-- The counters of a state that was opened. -/
structure Opened (c : Cfg) (ps : List Page) (S : Nat) (d d' : Data) : Prop where
  next : d'.next = ps.length
  min : d'.min = S + 2 * c.B - c.N
  avail : d'.next + d'.avail + 2 * c.B = d'.min + c.N
  spl : d'.spl = addPages c d.spl (ps.drop (S + 2 * c.B - c.N)) (S + 2 * c.B - c.N)
  cache : ∀ h : 0 < ps.length, d'.buffered = some ((ps.length - 1) % c.N) ∧ d'.rbuf = ps[ps.length - 1]

/-- A state as `embedDBInit` prepares it. -/
structure Blanked (c : Cfg) (d : Data) : Prop where
  next : d.next = 0
  min : d.min = 0
  avail : d.avail + 2 * c.B = c.N
  wbuf : d.wbuf = initPage c

theorem finishRlc_ok (G : RlcGeo c) (hbs : c.binSearch = false) (hN32 : c.N < 2 ^ 32) (hP32 : P ≤ 2 ^ 32) {S fr : Nat} {t : Option Page} {d : Data}
    (I : RImg c P ps S fr t d.dev.file) (hlt : ps.length < S) (hs : d.rlcStart = S % c.N)
    (F : FreshX (JunkAt c ps.length (S + 2 * c.B)) d) (Z : d.next = 0 ∧ d.min = 0 ∧ d.avail + 2 * c.B = c.N) :
    ∃ d', finishRlc c d (lastPage ps.length) = (d', 0) ∧ Opened c ps S d d' ∧ d'.dev = d.dev ∧ d'.wbuf = d.wbuf ∧
      d'.rlcNext = d.rlcNext ∧ d'.rlcStart = d.rlcStart := by
  have hB := G.B0
  have h4 := G.four
  have hhi := I.hi
  have hPl := I.lt
  unfold finishRlc lastPage
  by_cases hn : ps.length = 0
  · rw [if_pos hn]
    have hps : ps = [] := List.length_eq_zero_iff.mp hn
    have hm : S + 2 * c.B - c.N = 0 := by omega
    refine ⟨d, rfl, ⟨by omega, by omega, by omega, ?_, by omega⟩, rfl, rfl, rfl, rfl⟩
    rw [hps, List.drop_nil]; rfl
  · rw [if_neg hn]
    simp only
    rw [hs, Nat.mod_add_mod]
    obtain ⟨m, hm⟩ : ∃ m, m = S + 2 * c.B - c.N := ⟨_, rfl⟩
    have E := readPage_same d ((S + 2 * c.B) % c.N)
    have F1 := readX_fresh (ph := (S + 2 * c.B) % c.N) F
    have live : ∀ l (h : l < ps.length), m ≤ l → d.dev.file (l % c.N) = some ps[l] ∧ ¬ JunkAt c ps.length (S + 2 * c.B) (l % c.N) :=
      fun l h h' => ⟨I.live l h (by omega), not_junk G hhi h (by omega)⟩
    have hsm : (if (readPage d ((S + 2 * c.B) % c.N)).2 = true ∧
        pageId (readPage d ((S + 2 * c.B) % c.N)).1.rbuf % c.N = (S + 2 * c.B) % c.N then (S + 2 * c.B) % c.N else 0) = m % c.N := by
      rcases Nat.lt_or_ge (S + 2 * c.B) c.N with h | h
      · have hnX : ¬ JunkAt c ps.length (S + 2 * c.B) ((S + 2 * c.B) % c.N) := by
          rintro ⟨a, a1, a2, a3⟩
          have := mod_inj_window (by omega) (by omega) a3
          omega
        rw [if_neg, show m = 0 by omega, Nat.zero_mod]
        rintro ⟨k1, k2⟩
        cases hq : d.dev.file ((S + 2 * c.B) % c.N) with
        | none => rw [readX_none F hnX hq] at k1; cases k1
        | some q =>
          rw [(readX_some F hnX hq).2.1, Nat.mod_eq_of_lt h] at k2
          rw [Nat.mod_eq_of_lt h] at hq
          exact (I.far _ (le_refl _) q hq).2 ((Nat.dvd_add_right I.dvd).mpr (Dvd.intro_left _ rfl)) k2
      · have e : (S + 2 * c.B) % c.N = m % c.N := by rw [hm]; exact Nat.mod_eq_sub_mod h
        obtain ⟨l1, l2⟩ := live m (by omega) (le_refl _)
        obtain ⟨r1, r2, _⟩ := readX_some F l2 l1
        rw [e, r2, I.ids, if_pos ⟨r1, rfl⟩]
    rw [hsm]
    obtain ⟨d', g1, g2, g3, g4, g5, g6, g7, g8, g9, g10, g11⟩ := setCountersX_ok (ps := ps) (file := d.dev.file) (res := 2 * c.B) hbs hN32
      (by omega) I.ids F1 (by rw [E.dev]) (m := m) (by omega) (by omega) live
    refine ⟨d', by rw [g1], ⟨g4, by rw [g5, hm], by rw [g5]; exact g6, by rw [g7, E.spl, hm], fun _ => ⟨g10, g11⟩⟩, ?_, ?_, ?_, ?_⟩
    · rw [g2, E.dev]
    · rw [g3, E.wbuf]
    · rw [g8, E.rlcNext]
    · rw [g9, E.rlcStart, hs]

theorem eraseRlc_one (hio : ∀ n, c.ioOk n = true) (v : Dev) (x : Nat) :
    eraseRlc c v (x % c.N) 1 = (devRun c v [.erase (x % c.N) (x % c.N + c.B)], true) := by
  simp only [eraseRlc, erase_run hio, if_true]

theorem eraseRlc_two (hio : ∀ n, c.ioOk n = true) (v : Dev) (x : Nat) :
    eraseRlc c v (x % c.N) 2 = (devRun c v [.erase (x % c.N) (x % c.N + c.B),
      .erase ((x + c.B) % c.N) ((x + c.B) % c.N + c.B)], true) := by
  simp only [eraseRlc, erase_run hio, if_true, devRun_append, Nat.mod_add_mod]
  rfl

/-- The cache after an erase of a block without permanent data. -/
theorem FreshX.erase (G : RlcGeo c) {n S x : Nat} {d : Data} (F : FreshX (JunkAt c n S) d) (hx : c.B ∣ x)
    (h1 : n ≤ x) (h2 : x + c.B ≤ S) :
    FreshX (JunkAt c n S) { d with dev := devRun c d.dev [.erase (x % c.N) (x % c.N + c.B)] } := by
  intro ph hb hX
  have := F ph hb hX
  show Spec.applyEv c.eraseFx d.dev.file (.erase (x % c.N) (x % c.N + c.B)) ph = some d.rbuf
  simp only [Spec.applyEv]
  rw [if_neg, this]
  intro h
  obtain ⟨i, hi, he⟩ := (block_mem G.dvd G.N0 hx).mp h
  exact hX ⟨x + i, by omega, by omega, he⟩

/-- The temporary pages are found and the unused block of them is erased. -/
theorem rlcTemp_ok (G : RlcGeo c) (hio : ∀ n, c.ioOk n = true) (hE : RlcEraser c P) (hbs : c.binSearch = false)
    (hN32 : c.N < 2 ^ 32) (hP32 : P ≤ 2 ^ 32) (hP2 : 2 ≤ P) {S fr pos : Nat} {t : Option Page} {d : Data}
    (I : RImg c P ps S fr t d.dev.file) (hlt : ps.length < S) (hpos : (pos + (c.B - pos % c.B)) % c.N = S % c.N)
    (F : FreshX (JunkAt c ps.length S) d) (Z : Blanked c d) (hfr : t = none → fr = 0) :
    ∃ d' evs, rlcTemp c d pos (lastPage ps.length) = (d', 0) ∧ d'.dev = devRun c d.dev evs ∧
      RImg c P ps S fr t d'.dev.file ∧ Opened c ps S d d' ∧ d'.rlcStart = S % c.N ∧ d'.rlcNext % c.N = (S + fr) % c.N ∧
      d'.wbuf = t.getD (initPage c) ∧ (∀ ph q, Ev.write ph q ∉ evs) ∧
      ∀ (R : Log → Prop) (L : Log), R L → ps.map (recs c) = L.pages → (t.map (recs c)).getD [] = L.buf →
        Trail c P R L d.dev.file evs L d'.dev.file := by
  have hB := G.B0
  have h4 := G.four
  have hhi := I.hi
  have hPl := I.lt
  have hdS : c.B ∣ S + c.B := (Nat.dvd_add_right I.dvd).mpr (dvd_refl _)
  unfold rlcTemp
  simp only
  rw [hpos]
  obtain ⟨d1, hd1⟩ : ∃ d1 : Data, d1 = { d with rlcStart := S % c.N, rlcNext := S % c.N } := ⟨_, rfl⟩
  rw [← hd1]
  have hf1 : d1.dev = d.dev := by rw [hd1]
  -- pages of the area are read as they are stored
  have hX : ∀ i, i < 2 * c.B → ¬ JunkAt c ps.length S ((S + i) % c.N) := by
    rintro i hi ⟨a, a1, a2, a3⟩
    have := mod_inj_window (by omega) (by omega) a3
    omega
  have F1 : FreshX (JunkAt c ps.length S) d1 := by rw [hd1]; exact F
  have F2 := readX_fresh (ph := S % c.N) F1
  have E1 := readPage_same d1 (S % c.N)
  have hr0 := readX_opt (ph := (S + 0) % c.N) F1 (hX 0 (by omega))
  rw [hf1] at hr0
  obtain ⟨want, hwant⟩ : ∃ want : Nat → Bool, want = fun id =>
    decide (id = ((lastPage ps.length).getD 0 + 1) % 2 ^ 32 ∨ (id = 0 ∧ lastPage ps.length = none)) := ⟨_, rfl⟩
  have hwiff : ∀ q i, i < 2 * c.B → d.dev.file ((S + i) % c.N) = some q → (want (pageId q) = true ↔ pageId q = ps.length) := by
    intro q i hi hq
    rw [hwant]
    simp only [decide_eq_true_eq]
    unfold lastPage
    by_cases hn : ps.length = 0
    · rw [if_pos hn, hn]
      simp only [Option.getD_none, and_true]
      constructor
      · rintro (h | h)
        · rw [Nat.mod_eq_of_lt (by omega)] at h
          exfalso
          rcases I.junk (S + i) (by omega) (by omega) q hq with j | j | j
          · omega
          · rcases j.2 with j | j <;> omega
          · omega
        · exact h
      · exact Or.inr
    · rw [if_neg hn]
      simp only [Option.getD_some, reduceCtorEq, and_false, or_false]
      rw [Nat.mod_eq_of_lt (by omega), show ps.length - 1 + 1 = ps.length by omega]
  rw [← hwant]
  have hJ : ∀ ph, JunkAt c ps.length S ph → JunkAt c ps.length (S + 2 * c.B) ph := by
    rintro ph ⟨a, a1, a2, a3⟩
    exact ⟨a, a1, by omega, a3⟩
  cases ht : t with
  | none =>
    have hfr0 := hfr ht
    rw [ht, hfr0] at I
    obtain ⟨d2, e1, e2, e3⟩ := rlcScan_none (c := c) (file := d.dev.file) (want := want) hX (by
      intro i hi q hq
      rw [Bool.eq_false_iff]
      intro hw
      rcases I.mine (S + i) (by omega) (by omega) q hq ((hwiff q i hi hq).mp hw) with h | h
      · exact h.2.2 rfl
      · omega)
      (2 * c.B) (readPage d1 (S % c.N)).1 0 (readPage d1 (S % c.N)).2 (by omega) (by rw [E1.dev, hf1]) F2
      (fun _ => by simpa using hr0)
    rw [Nat.add_zero] at e1
    rw [e1]
    simp only
    have E2 := E1.trans e2
    have hd2 : d2.dev = d.dev := by rw [E2.dev, hf1]
    rw [Nat.mod_mod, eraseRlc_two hio, hd2]
    simp only [if_true]
    -- the two erases
    have d0 : NoErase c ∨ ∀ a, ps.length ≤ a → a < S → c.B ∣ a → Dead c d.dev.file a :=
      Or.inr fun a a1 a2 a3 => I.dead a a1 (by omega) a3
    obtain ⟨I1, D1⟩ := I.erase G hE I.dvd (by omega) (by omega) d0 (by simp)
    have T1 := fun (R : Log → Prop) (L : Log) (h1 : R L) (h2 : ps.map (recs c) = L.pages)
      (h3 : ((none : Option Page).map (recs c)).getD [] = L.buf) =>
      trail_erase (R := R) (L := L) G hE I h2 h3 h1 I.dvd (by omega) (by omega) d0 (by simp)
    have F3 : FreshX (JunkAt c ps.length (S + 2 * c.B)) { d2 with dev := devRun c d.dev [.erase (S % c.N) (S % c.N + c.B)] } := by
      have := (e3.mono hJ).erase G I.dvd (by omega) (by omega)
      rw [hd2] at this
      exact this
    have F4 := F3.erase G hdS (by omega) (by omega)
    simp only [devRun_append] at F4
    generalize hg2 : Spec.applyEv c.eraseFx d.dev.file (.erase (S % c.N) (S % c.N + c.B)) = f2 at *
    have d1' : NoErase c ∨ ∀ a, ps.length ≤ a → a < S + c.B → c.B ∣ a → Dead c f2 a := by
      refine D1.imp_right fun h a a1 a2 a3 => ?_
      rcases Nat.lt_or_ge a S with h' | h'
      · exact I1.dead a a1 (by omega) a3
      · have : a = S := by
          obtain ⟨i, hi⟩ := a3
          obtain ⟨j, hj⟩ := I.dvd
          rw [hi, hj] at h'
          rw [hi, hj, show c.B * j + c.B = c.B * (j + 1) by ring] at a2
          have b1 := Nat.le_of_mul_le_mul_left h' hB
          have b2 := Nat.lt_of_mul_lt_mul_left a2
          rw [hi, hj, show i = j by omega]
        rw [this]; exact h
    obtain ⟨I2, _⟩ := I1.erase G hE hdS (by omega) (by omega) d1' (by simp)
    have T2 := fun (R : Log → Prop) (L : Log) (h1 : R L) (h2 : ps.map (recs c) = L.pages)
      (h3 : ((none : Option Page).map (recs c)).getD [] = L.buf) =>
      trail_erase (R := R) (L := L) G hE I1 h2 h3 h1 hdS (by omega) (by omega) d1' (by simp)
    have hI2 : RImg c P ps S 0 none (devRun c d.dev [.erase (S % c.N) (S % c.N + c.B),
        .erase ((S + c.B) % c.N) ((S + c.B) % c.N + c.B)]).file := by
      rw [← hg2] at I2; exact I2
    obtain ⟨d', g1, g2, g3, g4, g5, g6⟩ := finishRlc_ok G hbs hN32 hP32
      (d := { d2 with dev := devRun c d.dev [.erase (S % c.N) (S % c.N + c.B), .erase ((S + c.B) % c.N) ((S + c.B) % c.N + c.B)] }) hI2 hlt
      (by show d2.rlcStart = _; rw [E2.rlcStart, hd1]) F4
      ⟨by show d2.next = 0; rw [E2.next, hd1]; exact Z.next, by show d2.min = 0; rw [E2.min, hd1]; exact Z.min,
        by show d2.avail + _ = _; rw [E2.avail, hd1]; exact Z.avail⟩
    refine ⟨d', _, g1, g3, by rw [g3, hfr0]; exact hI2, ⟨g2.next, g2.min, g2.avail, ?_, g2.cache⟩, ?_, ?_, ?_, by simp, ?_⟩
    · rw [g2.spl]
      show addPages c d2.spl _ _ = _
      rw [E2.spl, hd1]
    · rw [g6]; show d2.rlcStart = _; rw [E2.rlcStart, hd1]
    · rw [g5]; show d2.rlcNext % c.N = _; rw [E2.rlcNext, hd1, hfr0, Nat.add_zero]; exact Nat.mod_mod _ _
    · rw [g4]; show d2.wbuf = _; rw [E2.wbuf, hd1]; exact Z.wbuf
    · intro R L h1 h2 h3
      rw [g3]
      have := (T1 R L h1 h2 h3).append (T2 R L h1 h2 h3)
      rw [← hg2] at this
      exact this
  | some p =>
    rw [ht] at I
    obtain ⟨t1, t2, t3, t4, t5, t6⟩ := I.temp p rfl
    have hfr2 := I.fr2
    have hwp : want (pageId p) = true := (hwiff p (fr - 1) (by omega) t2).mpr t3
    obtain ⟨d2, e1, e2, e3⟩ := rlcScan_some (c := c) (file := d.dev.file) (want := want) (j := fr - 1) (p := p) hX (by omega) t2 hwp
      (fun i hi => I.read i (by omega))
      (fun i hi hne q hq hw => t6 i hi hne q hq ((hwiff q i hi hq).mp hw))
      (2 * c.B) (readPage d1 (S % c.N)).1 0 none (readPage d1 (S % c.N)).2 (by omega) (by rw [E1.dev, hf1]) F2
      (fun _ => by simpa using hr0) (by simp) (by omega)
    rw [Nat.add_zero] at e1
    rw [e1]
    simp only
    have E2 := E1.trans e2
    have hd2 : d2.dev = d.dev := by rw [E2.dev, hf1]
    simp only [Nat.mod_add_mod, Nat.add_assoc (S % c.N)]
    have F3 : FreshX (JunkAt c ps.length S) { d2 with rlcNext := (S + (fr - 1 + 1)) % c.N } := e3
    obtain ⟨r1, r2, _⟩ := readX_some F3 (hX (fr - 1) (by omega)) (show d2.dev.file _ = some p by rw [hd2]; exact t2)
    have F4 := readX_fresh (ph := (S + (fr - 1)) % c.N) F3
    have E3 := readPage_same { d2 with rlcNext := (S + (fr - 1 + 1)) % c.N } ((S + (fr - 1)) % c.N)
    rw [if_pos r1]
    generalize readPage { d2 with rlcNext := (S + (fr - 1 + 1)) % c.N } ((S + (fr - 1)) % c.N) = r3 at *
    have hd3 : r3.1.dev = d.dev := by rw [E3.dev]; exact hd2
    rw [eraseRlc_one hio, hd3]
    simp only [if_true]
    obtain ⟨x, hx⟩ : ∃ x, x = S + (if fr - 1 < c.B then c.B else 0) := ⟨_, rfl⟩
    rw [← hx]
    have hdx : c.B ∣ x := by
      rw [hx]
      split_ifs
      · exact hdS
      · exact I.dvd
    have hx1 : ps.length ≤ x ∧ x + c.B ≤ S + 2 * c.B := by split_ifs at hx <;> omega
    have hx2 : (some p : Option Page) ≠ none → S + fr ≤ x ∨ x + c.B < S + fr := by
      intro _; split_ifs at hx <;> omega
    have d0 : NoErase c ∨ ∀ a, ps.length ≤ a → a < x → c.B ∣ a → Dead c d.dev.file a := by
      refine Or.inr fun a a1 a2 a3 => I.dead a a1 ?_ a3
      split_ifs at hx with h
      · obtain ⟨i, hi⟩ := a3
        obtain ⟨j, hj⟩ := I.dvd
        rw [hx, hi, hj, show c.B * j + c.B = c.B * (j + 1) by ring] at a2
        have := Nat.lt_of_mul_lt_mul_left a2
        have := Nat.mul_le_mul_left c.B (show i ≤ j by omega)
        omega
      · omega
    have I1 := (I.erase G hE hdx hx1.1 (by omega) d0 hx2).1
    have F5 : FreshX (JunkAt c ps.length (S + 2 * c.B)) ({ r3.1 with wbuf := r3.1.rbuf, dev := devRun c d.dev [.erase (x % c.N) (x % c.N + c.B)] } : Data) := by
      have := (F4.mono hJ).erase G hdx hx1.1 hx1.2
      rw [hd3] at this
      exact this
    obtain ⟨d', g1, g2, g3, g4, g5, g6⟩ := finishRlc_ok G hbs hN32 hP32 (t := some p) (fr := fr) (d := { r3.1 with wbuf := r3.1.rbuf, dev := devRun c d.dev [.erase (x % c.N) (x % c.N + c.B)] }) I1 hlt
      (by show r3.1.rlcStart = _; rw [E3.rlcStart]; show d2.rlcStart = _; rw [E2.rlcStart, hd1]) F5
      ⟨by show r3.1.next = 0; rw [E3.next]; show d2.next = 0; rw [E2.next, hd1]; exact Z.next,
        by show r3.1.min = 0; rw [E3.min]; show d2.min = 0; rw [E2.min, hd1]; exact Z.min,
        by show r3.1.avail + _ = _; rw [E3.avail]; show d2.avail + _ = _; rw [E2.avail, hd1]; exact Z.avail⟩
    refine ⟨d', _, g1, g3, by rw [g3]; exact I1, ⟨g2.next, g2.min, g2.avail, ?_, g2.cache⟩, ?_, ?_, ?_, by simp, ?_⟩
    · rw [g2.spl]
      show addPages c r3.1.spl _ _ = _
      rw [E3.spl]; show addPages c d2.spl _ _ = _; rw [E2.spl, hd1]
    · rw [g6]; show r3.1.rlcStart = _; rw [E3.rlcStart]; show d2.rlcStart = _; rw [E2.rlcStart, hd1]
    · rw [g5]; show r3.1.rlcNext % c.N = _; rw [E3.rlcNext]
      show (S + (fr - 1 + 1)) % c.N % c.N = _
      rw [Nat.mod_mod, show fr - 1 + 1 = fr by omega]
    · rw [g4]; show r3.1.rbuf = _; rw [r2]; rfl
    · intro R L h1 h2 h3
      rw [g3]
      exact trail_erase (R := R) (L := L) G hE I h2 h3 h1 hdx hx1.1 (by omega) d0 hx2

end

end EDB
