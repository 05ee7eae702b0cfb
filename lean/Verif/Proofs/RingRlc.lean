import Verif.Proofs.RingUse
import Verif.Proofs.RlcPut

/-!
# The data file of a table with record-level consistency

Behind the block being filled lie two blocks for temporary pages, starting at page `S`; `fr` is the offset of the next
temporary page.  The invariant says which pages hold something.
-/

namespace EDB

/-- Which pages of the temporary area may hold something: those of the block being filled, and the whole other block until
the second page of the block is written. -/
def TempDirty (B fr t : Nat) : Prop :=
  (fr = 0 ∧ B ≤ t) ∨ (1 ≤ fr ∧ fr ≤ B ∧ (t < fr ∨ fr = 1 ∧ B ≤ t)) ∨ (B < fr ∧ (B ≤ t ∧ t < fr ∨ fr = B + 1 ∧ t < B))

/-- Accesses inside a file of `N` pages, erases of whole blocks, no write to a page that holds something. -/
def LogOk (N B : Nat) (log : List Ev) : Prop :=
  (∀ ph p, Ev.write ph p ∈ log → ph < N) ∧ (∀ lo hi, Ev.erase lo hi ∈ log → B ∣ lo ∧ hi = lo + B ∧ hi ≤ N) ∧
    Spec.ErasedFirst (fun _ => False) log

theorem LogOk.write {N B : Nat} {log : List Ev} (h : LogOk N B log) {ph : Nat} (p : Page) (hp : ph < N)
    (hd : ¬ dirtyAfter (fun _ => False) log ph) : LogOk N B (log ++ [.write ph p]) := by
  refine ⟨?_, ?_, ?_⟩
  · intro q r hm
    rcases List.mem_append.mp hm with hm | hm
    · exact h.1 q r hm
    · simp only [List.mem_singleton, Ev.write.injEq] at hm
      rw [hm.1]; exact hp
  · intro lo hi hm
    rcases List.mem_append.mp hm with hm | hm
    · exact h.2.1 lo hi hm
    · simp at hm
  · rw [erasedFirst_append]
    exact ⟨h.2.2, hd, trivial⟩

theorem LogOk.erase {N B : Nat} {log : List Ev} (h : LogOk N B log) {lo : Nat} (hb : B ∣ lo) (hl : lo + B ≤ N) :
    LogOk N B (log ++ [.erase lo (lo + B)]) := by
  refine ⟨?_, ?_, ?_⟩
  · intro q r hm
    rcases List.mem_append.mp hm with hm | hm
    · exact h.1 q r hm
    · simp at hm
  · intro a b hm
    rcases List.mem_append.mp hm with hm | hm
    · exact h.2.1 a b hm
    · simp only [List.mem_singleton, Ev.erase.injEq] at hm
      obtain ⟨rfl, rfl⟩ := hm
      exact ⟨hb, rfl, hl⟩
  · rw [erasedFirst_append]
    exact ⟨h.2.2, trivial⟩

/-- The geometry of the data file, see the file comment. -/
structure RGeo (c : Cfg) (S fr : Nat) (d : Data) : Prop where
  dvd : c.B ∣ S
  start : d.rlcStart = S % c.N
  nxt : d.rlcNext % c.N = (S + fr) % c.N
  fr2 : fr ≤ 2 * c.B
  lo : d.next ≤ S
  hi : S ≤ d.next + c.B
  min : d.min = S + 2 * c.B - c.N
  avail : d.next + d.avail + 2 * c.B = d.min + c.N
  log : LogOk c.N c.B d.dev.log
  dirty : ∀ i, dirtyAfter (fun _ => False) d.dev.log i →
    (∃ l, d.min ≤ l ∧ l < d.next ∧ l % c.N = i) ∨ ∃ t, t < 2 * c.B ∧ (S + t) % c.N = i ∧ TempDirty c.B fr t

section
variable {c : Cfg} {S fr : Nat} {d d' : Data}

theorem RGeo.congr (h : RGeo c S fr d) (e1 : d'.dev = d.dev) (e2 : d'.next = d.next) (e3 : d'.min = d.min)
    (e4 : d'.avail = d.avail) (e5 : d'.rlcStart = d.rlcStart) (e6 : d'.rlcNext = d.rlcNext) : RGeo c S fr d' :=
  ⟨h.dvd, by rw [e5]; exact h.start, by rw [e6]; exact h.nxt, h.fr2, by rw [e2]; exact h.lo, by rw [e2]; exact h.hi,
    by rw [e3]; exact h.min, by rw [e2, e3, e4]; exact h.avail, by rw [e1]; exact h.log, by rw [e1, e2, e3]; exact h.dirty⟩

theorem RGeo.same (h : RGeo c S fr d) (E : SameButCache d d') : RGeo c S fr d' :=
  h.congr E.dev E.next E.min E.avail E.rlcStart E.rlcNext

theorem RGeo.fresh (G : RlcGeo c) (hr : c.rlc = true) (rb : Page) (sm : Nat → Nat × Nat) :
    RGeo c c.B 0 (Data.fresh c rb sm) := by
  have h4 := G.four
  have hB := G.B0
  refine ⟨dvd_refl _, ?_, ?_, by omega, ?_, ?_, ?_, ?_, ⟨?_, ?_, trivial⟩, ?_⟩
  · show c.B = c.B % c.N
    rw [Nat.mod_eq_of_lt (by omega)]
  · rfl
  · show 0 ≤ c.B; omega
  · show c.B ≤ 0 + c.B; omega
  · show 0 = c.B + 2 * c.B - c.N; omega
  · simp only [Data.fresh, hr, if_true]; omega
  · intro ph p h; simp [Data.fresh] at h
  · intro lo hi h; simp [Data.fresh] at h
  · intro i h; simp [Data.fresh, dirtyAfter] at h

/-- A page of a block, `x` being the start of the block. -/
theorem block_in (G : RlcGeo c) {x u : Nat} (hx : c.B ∣ x) (hu : u < c.B) :
    x % c.N ≤ (x + u) % c.N ∧ (x + u) % c.N < x % c.N + c.B := by
  have hend := block_end G.dvd G.N0 (Nat.mod_eq_zero_of_dvd hx)
  have e : (x + u) % c.N = x % c.N + u := by
    have h4 := G.four
    rw [Nat.add_mod, Nat.mod_eq_of_lt (show u < c.N by omega), Nat.mod_eq_of_lt (by omega)]
  omega

theorem dvd_modN (G : RlcGeo c) {x : Nat} (hx : c.B ∣ x) : c.B ∣ x % c.N :=
  (Nat.dvd_mod_iff G.dvd).mpr hx

theorem block_le (G : RlcGeo c) {x : Nat} (hx : c.B ∣ x) : x % c.N + c.B ≤ c.N :=
  block_end G.dvd G.N0 (Nat.mod_eq_zero_of_dvd hx)

/-- The next permanent page. -/
theorem RGeo.page (G : RlcGeo c) (h : RGeo c S fr d) (hlt : d.next < S) (p : Page)
    (e1 : d'.dev.log = d.dev.log ++ [.write (d.next % c.N) p]) (e2 : d'.next = d.next + 1) (e3 : d'.min = d.min)
    (e4 : d'.avail = d.avail - 1) (e5 : d'.rlcStart = d.rlcStart) (e6 : d'.rlcNext = d.rlcNext) (ha : d.avail ≠ 0) :
    RGeo c S fr d' := by
  have h4 := G.four
  have hB := G.B0
  have hN := G.N0
  have hm := h.min
  have hs := h.avail
  have hhi := h.hi
  refine ⟨h.dvd, by rw [e5]; exact h.start, by rw [e6]; exact h.nxt, h.fr2, by omega, by omega, by rw [e3]; exact h.min,
    by rw [e2, e3, e4]; omega, ?_, ?_⟩
  · rw [e1]
    refine h.log.write p (Nat.mod_lt _ hN) ?_
    intro hd
    rcases h.dirty _ hd with ⟨l, h1, h2, h3⟩ | ⟨t, h1, h2, -⟩
    · have := mod_inj_window (by omega) (by omega) h3
      omega
    · have := mod_inj_window (by omega) (by omega) h2
      omega
  · intro i hi
    rw [e1, dirtyAfter_append] at hi
    rw [e2, e3]
    rcases hi with hi | hi
    · exact Or.inl ⟨d.next, by omega, by omega, hi.symm⟩
    · rcases h.dirty i hi with ⟨l, h1, h2, h3⟩ | h1
      · exact Or.inl ⟨l, h1, by omega, h3⟩
      · exact Or.inr h1

theorem RGeo.temp (G : RlcGeo c) (hB2 : 2 ≤ c.B) (hio : ∀ n, c.ioOk n = true) (h : RGeo c S fr d) (hlt : d.next < S) :
    RGeo c S (nextOff c fr + 1) (writeTemp c d).1 := by
  rw [writeTemp_eq G hio h.dvd h.start h.nxt h.fr2]
  have h4 := G.four
  have hN := G.N0
  have hm := h.min
  have hs := h.avail
  have hhi := h.hi
  have hfr := h.fr2
  have hoff : nextOff c fr < 2 * c.B ∧ (nextOff c fr = fr ∨ nextOff c fr = 0 ∧ fr = 2 * c.B) := by
    unfold nextOff
    by_cases hc : fr = 2 * c.B
    · rw [if_pos hc]; omega
    · rw [if_neg hc]; omega
  refine ⟨h.dvd, h.start, ?_, by omega, h.lo, h.hi, h.min, h.avail, ?_, ?_⟩
  · show ((S + nextOff c fr) % c.N + 1) % c.N = (S + (nextOff c fr + 1)) % c.N
    rw [Nat.mod_add_mod]; rfl
  all_goals
    -- what is dirty after the erase, if any
    have mid : LogOk c.N c.B (d.dev.log ++ (if nextOff c fr % c.B = 1 then
        [Ev.erase ((S + (if nextOff c fr = 1 then c.B else 0)) % c.N) ((S + (if nextOff c fr = 1 then c.B else 0)) % c.N + c.B)] else [])) ∧
        ∀ i, dirtyAfter (fun _ => False) (d.dev.log ++ (if nextOff c fr % c.B = 1 then
        [Ev.erase ((S + (if nextOff c fr = 1 then c.B else 0)) % c.N) ((S + (if nextOff c fr = 1 then c.B else 0)) % c.N + c.B)] else [])) i →
          (∃ l, d.min ≤ l ∧ l < d.next ∧ l % c.N = i) ∨ ∃ t, t < 2 * c.B ∧ (S + t) % c.N = i ∧ TempDirty c.B (nextOff c fr + 1) t ∧ t ≠ nextOff c fr := by
      by_cases h1 : nextOff c fr % c.B = 1
      · rw [if_pos h1]
        have hblk : c.B ∣ S + (if nextOff c fr = 1 then c.B else 0) := by
          split_ifs
          · exact Nat.dvd_add h.dvd (dvd_refl _)
          · exact h.dvd
        refine ⟨h.log.erase (dvd_modN G hblk) (block_le G hblk), ?_⟩
        intro i hi
        rw [dirtyAfter_append] at hi
        obtain ⟨hi, hne⟩ := hi
        rcases h.dirty i hi with hl | ⟨t, t1, t2, t3⟩
        · exact Or.inl hl
        · refine Or.inr ⟨t, t1, t2, ?_⟩
          have hcase : nextOff c fr = 1 ∨ nextOff c fr = c.B + 1 := by
            rcases Nat.lt_or_ge (nextOff c fr) c.B with hx | hx
            · rw [Nat.mod_eq_of_lt hx] at h1; exact Or.inl h1
            · rw [Nat.mod_eq_sub_mod hx, Nat.mod_eq_of_lt (by omega)] at h1; right; omega
          rcases hcase with hx | hx
          · rw [hx] at hne hoff ⊢
            rw [if_pos rfl] at hne
            have : t < c.B := by
              by_contra hge
              apply hne
              have := block_in G (x := S + c.B) (u := t - c.B) (Nat.dvd_add h.dvd (dvd_refl _)) (by omega)
              rw [show S + c.B + (t - c.B) = S + t by omega, t2] at this
              exact this
            unfold TempDirty at t3 ⊢
            omega
          · rw [hx] at hne hoff ⊢
            rw [if_neg (by omega), Nat.add_zero] at hne
            have : c.B ≤ t := by
              by_contra hge
              apply hne
              have := block_in G (x := S) (u := t) h.dvd (by omega)
              rw [t2] at this
              exact this
            unfold TempDirty at t3 ⊢
            omega
      · rw [if_neg h1, List.append_nil]
        refine ⟨h.log, ?_⟩
        intro i hi
        rcases h.dirty i hi with hl | ⟨t, t1, t2, t3⟩
        · exact Or.inl hl
        · refine Or.inr ⟨t, t1, t2, ?_⟩
          have hx1 : nextOff c fr ≠ 1 := by
            intro hx; rw [hx, Nat.mod_eq_of_lt (by omega)] at h1; exact h1 rfl
          have hx2 : nextOff c fr ≠ c.B + 1 := by
            intro hx; rw [hx, Nat.add_mod_left, Nat.mod_eq_of_lt (by omega)] at h1; exact h1 rfl
          unfold TempDirty at t3 ⊢
          omega
    obtain ⟨mid1, mid2⟩ := mid
  · show LogOk c.N c.B (d.dev.log ++ tempEvs c S fr (outPage d))
    unfold tempEvs
    rw [← List.append_assoc]
    refine mid1.write _ (Nat.mod_lt _ hN) ?_
    intro hd
    rcases mid2 _ hd with ⟨l, h1, h2, h3⟩ | ⟨t, h1, h2, -, h3⟩
    · have := mod_inj_window (by omega) (by omega) h3
      omega
    · have := mod_inj_window (by omega) (by omega) h2
      omega
  · intro i hi
    have hi' : dirtyAfter (fun _ => False) (d.dev.log ++ tempEvs c S fr (outPage d)) i := hi
    unfold tempEvs at hi'
    rw [← List.append_assoc, dirtyAfter_append] at hi'
    rcases hi' with hi' | hi'
    · refine Or.inr ⟨nextOff c fr, hoff.1, hi'.symm, ?_⟩
      unfold TempDirty
      omega
    · rcases mid2 i hi' with h1 | ⟨t, h1, h2, h3, -⟩
      · exact Or.inl h1
      · exact Or.inr ⟨t, h1, h2, h3⟩

theorem RGeo.shift (G : RlcGeo c) (hio : ∀ n, c.ioOk n = true) (hbs : c.binSearch = false) (h : RGeo c S fr d)
    (he : d.next = S) (e : shiftRlc c d = .ok d') : RGeo c (S + c.B) 0 d' ∧ d'.next = d.next := by
  rw [shiftRlc_eq G hio hbs h.start h.min] at e
  cases e
  refine ⟨?_, rfl⟩
  have h4 := G.four
  have hB := G.B0
  have hm := h.min
  have hs := h.avail
  have hd2 : c.B ∣ S + c.B := Nat.dvd_add h.dvd (dvd_refl _)
  have hd3 : c.B ∣ S + 2 * c.B := Nat.dvd_add h.dvd (Dvd.intro_left _ rfl)
  have hround : S + 2 * c.B < c.N → S + 3 * c.B ≤ c.N := by
    intro hlt
    obtain ⟨a, ha⟩ := hd3
    obtain ⟨b, hb⟩ := G.dvd
    rw [ha, hb] at hlt
    have := Nat.lt_of_mul_lt_mul_left hlt
    have := Nat.mul_le_mul_left c.B this
    rw [Nat.mul_succ] at this
    omega
  have hsplit : d.dev.log ++ shiftEvs c S = d.dev.log ++ [.erase (S % c.N) (S % c.N + c.B)] ++
      [.erase ((S + c.B) % c.N) ((S + c.B) % c.N + c.B)] ++
      (if c.N ≤ S + 2 * c.B then [] else [.erase ((S + 2 * c.B) % c.N) ((S + 2 * c.B) % c.N + c.B)]) := by
    unfold shiftEvs
    simp
  refine ⟨hd2, rfl, ?_, by omega, ?_, ?_, ?_, ?_, ?_, ?_⟩
  · show (S + c.B) % c.N % c.N = (S + c.B + 0) % c.N
    rw [Nat.mod_mod, Nat.add_zero]
  · show d.next ≤ S + c.B; omega
  · show S + c.B ≤ d.next + c.B; omega
  · show (if c.N ≤ S + 2 * c.B then d.min + c.B else d.min) = S + c.B + 2 * c.B - c.N
    by_cases hw : c.N ≤ S + 2 * c.B
    · rw [if_pos hw]; omega
    · rw [if_neg hw]; have := hround (by omega); omega
  · show d.next + (if c.N ≤ S + 2 * c.B then d.avail + c.B else d.avail) + 2 * c.B = (if c.N ≤ S + 2 * c.B then d.min + c.B else d.min) + c.N
    by_cases hw : c.N ≤ S + 2 * c.B
    · rw [if_pos hw, if_pos hw]; omega
    · rw [if_neg hw, if_neg hw]; omega
  · show LogOk c.N c.B (d.dev.log ++ shiftEvs c S)
    rw [hsplit]
    have h1 := (h.log.erase (dvd_modN G h.dvd) (block_le G h.dvd)).erase (dvd_modN G hd2) (block_le G hd2)
    by_cases hw : c.N ≤ S + 2 * c.B
    · rw [if_pos hw, List.append_nil]; exact h1
    · rw [if_neg hw]; exact h1.erase (dvd_modN G hd3) (block_le G hd3)
  · intro i hi
    have hi' : dirtyAfter (fun _ => False) (d.dev.log ++ shiftEvs c S) i := hi
    rw [hsplit, dirtyAfter_append, dirtyAfter_append, dirtyAfter_append] at hi'
    have hi2 : dirtyAfter (fun _ => False) d.dev.log i ∧ ¬ (S % c.N ≤ i ∧ i < S % c.N + c.B) ∧
        ¬ ((S + c.B) % c.N ≤ i ∧ i < (S + c.B) % c.N + c.B) := by
      by_cases hw : c.N ≤ S + 2 * c.B
      · rw [if_pos hw] at hi'
        exact ⟨hi'.1.1, hi'.1.2, hi'.2⟩
      · rw [if_neg hw] at hi'
        exact ⟨hi'.1.1.1, hi'.1.1.2, hi'.1.2⟩
    obtain ⟨g1, g2, g3⟩ := hi2
    show (∃ l, (if c.N ≤ S + 2 * c.B then d.min + c.B else d.min) ≤ l ∧ l < d.next ∧ l % c.N = i) ∨ _
    rcases h.dirty i g1 with ⟨l, l1, l2, l3⟩ | ⟨t, t1, t2, -⟩
    · by_cases hw : c.N ≤ S + 2 * c.B
      · rw [if_pos hw]
        rcases Nat.lt_or_ge l (d.min + c.B) with hl | hl
        · right
          refine ⟨c.B + (l - d.min), by omega, ?_, Or.inl ⟨rfl, by omega⟩⟩
          rw [show S + c.B + (c.B + (l - d.min)) = l + c.N by omega, Nat.add_mod_right, l3]
        · exact Or.inl ⟨l, hl, l2, l3⟩
      · rw [if_neg hw]
        exact Or.inl ⟨l, l1, l2, l3⟩
    · exfalso
      rcases Nat.lt_or_ge t c.B with ht | ht
      · apply g2
        have := block_in G h.dvd ht
        rw [t2] at this
        exact this
      · apply g3
        have := block_in G (x := S + c.B) (u := t - c.B) hd2 (by omega)
        rw [show S + c.B + (t - c.B) = S + t by omega, t2] at this
        exact this

/-! ### The calls -/

/-- Between calls. -/
def RHome (c : Cfg) (d : Data) : Prop := ∃ S fr, RGeo c S fr d ∧ d.next < S

theorem RHome.same (h : RHome c d) (E : SameButCache d d') : RHome c d' := by
  obtain ⟨S, fr, h1, h2⟩ := h
  exact ⟨S, fr, h1.same E, by rw [E.next]; exact h2⟩

theorem RGeo.writePage (G : RlcGeo c) (hio : ∀ n, c.ioOk n = true) (h : RGeo c S fr d) (hlt : d.next < S)
    {pn : Option Nat} (e : writePage c d = .ok (d', pn)) : RGeo c S fr d' ∧ d'.next = d.next + 1 ∧ pn = some d.next := by
  have h4 := G.four
  have hB := G.B0
  have ha : d.avail ≠ 0 := by
    have h1 := h.avail; have h2 := h.min; have h3 := h.hi
    omega
  unfold EDB.writePage at e
  simp only [ha, if_false, write_run hio, if_true] at e
  cases e
  exact ⟨h.page G hlt (wr d.wbuf 0 (leBytes 4 d.next)) rfl rfl rfl rfl rfl rfl ha, rfl, rfl⟩

theorem RHome.finish (G : RlcGeo c) (hB2 : 2 ≤ c.B) (hio : ∀ n, c.ioOk n = true) (hbs : c.binSearch = false)
    (hr : c.rlc = true) {wrote : Bool} {key loc : Nat} {data : List Byte} {r : Int} {w : Bool}
    (h : RGeo c S fr d) (hlt : wrote = false → d.next < S) (hlt2 : wrote = true → S < d.next + c.B)
    (e : finishPut c d wrote key data loc = .ok (d', r, w)) : RHome c d' := by
  have hB := G.B0
  unfold finishPut at e
  rw [hr, if_pos rfl] at e
  have h1 : RGeo c S fr { d with wbuf := appendRec c d.wbuf key data loc } := h.congr rfl rfl rfl rfl rfl rfl
  have hnx : ∀ d2 : Data, (writeTemp c d2).1.next = d2.next := fun d2 => rfl
  have hlo := h.lo
  by_cases hc : wrote = true ∧ d.next % c.B = 0
  · rw [if_pos hc] at e
    obtain ⟨d2, h2, e⟩ := Res.bind_eq_ok e
    cases e
    have hSn : d.next = S := by
      have a1 := hlt2 hc.1
      have a2 : (S - d.next) % c.B = 0 :=
        Nat.mod_eq_zero_of_dvd ((Nat.dvd_sub h.dvd (Nat.dvd_of_mod_eq_zero hc.2)))
      rw [Nat.mod_eq_of_lt (by omega)] at a2
      omega
    obtain ⟨h3, h4⟩ := h1.shift G hio hbs hSn h2
    have h5 : d2.next = d.next := h4
    exact ⟨S + c.B, _, h3.temp G hB2 hio (by omega), by rw [hnx]; omega⟩
  · rw [if_neg hc] at e
    cases e
    have hl : d.next < S := by
      cases hw : wrote
      · exact hlt hw
      · rcases Nat.lt_or_ge d.next S with hx | hx
        · exact hx
        · exfalso
          apply hc
          refine ⟨hw, ?_⟩
          rw [show d.next = S by omega]
          exact Nat.mod_eq_zero_of_dvd h.dvd
    exact ⟨S, _, h1.temp G hB2 hio hl, by rw [hnx]; exact hl⟩

theorem indexPage_geo (h : RGeo c S fr d) (pn : Option Nat) : RGeo c S fr (indexPage c d pn) := by
  unfold indexPage
  split_ifs
  · exact h
  · exact h.congr rfl rfl rfl rfl rfl rfl

theorem indexPage_next (d : Data) (pn : Option Nat) : (indexPage c d pn).next = d.next := by
  unfold indexPage
  split_ifs <;> rfl

theorem RHome.putX (G : RlcGeo c) (hB2 : 2 ≤ c.B) (hio : ∀ n, c.ioOk n = true) (hbs : c.binSearch = false)
    (hr : c.rlc = true) {x x' : Idx} {key loc : Nat} {data : List Byte} {r : Int} {w : Bool} (h : RHome c d)
    (e : putX c d x key data loc = .ok (d', x', r, w)) : RHome c d' := by
  unfold EDB.putX at e
  have hs : SameButCache d (orderCheck c d key).1 := orderCheck_same d key
  rcases hoc : orderCheck c d key with ⟨d1, ok⟩
  rw [hoc] at e hs
  simp only at e hs
  have h1 := h.same hs
  obtain ⟨S, fr, h1, hlt⟩ := h1
  by_cases hk : ok = true
  · rw [if_pos hk] at e
    by_cases hf : pageCount d1.wbuf ≥ c.maxRec
    · rw [if_pos hf] at e
      obtain ⟨⟨d2, pn⟩, h2, e⟩ := Res.bind_eq_ok e
      simp only at e
      have hx : ∃ r3 w3, finishPut c { indexPage c d2 pn with wbuf := initPage c } true key data loc = .ok (d', r3, w3) := by
        split_ifs at e
        · obtain ⟨x2, -, e⟩ := Res.bind_eq_ok e
          obtain ⟨⟨d3, r3, w3⟩, h4, e⟩ := Res.bind_eq_ok e
          cases e
          exact ⟨_, _, h4⟩
        · obtain ⟨x2, -, e⟩ := Res.bind_eq_ok e
          obtain ⟨⟨d3, r3, w3⟩, h4, e⟩ := Res.bind_eq_ok e
          cases e
          exact ⟨_, _, h4⟩
      obtain ⟨r3, w3, h4⟩ := hx
      obtain ⟨h5, h6, -⟩ := h1.writePage G hio hlt h2
      have hhi := h1.hi
      have h7 : RGeo c S fr { indexPage c d2 pn with wbuf := initPage c } := (indexPage_geo h5 pn).congr rfl rfl rfl rfl rfl rfl
      have h8 : ({ indexPage c d2 pn with wbuf := initPage c } : Data).next = d1.next + 1 := by
        show (indexPage c d2 pn).next = _
        rw [indexPage_next, h6]
      exact RHome.finish G hB2 hio hbs hr h7 (by simp) (fun _ => by rw [h8]; omega) h4
    · rw [if_neg hf] at e
      obtain ⟨⟨d3, r3, w3⟩, h4, e⟩ := Res.bind_eq_ok e
      cases e
      exact RHome.finish G hB2 hio hbs hr h1 (fun _ => hlt) (by simp) h4
  · rw [if_neg hk] at e
    cases e
    exact ⟨S, fr, h1, hlt⟩

theorem RHome.flushX (G : RlcGeo c) (hio : ∀ n, c.ioOk n = true) {x x' : Idx} {r : Int} {w : Bool} (h : RHome c d)
    (e : flushX c d x = .ok (d', x', r, w)) (hq : c.B ∣ d'.next → d'.next ≠ d.next → pageCount d'.wbuf ≠ 0) : RHome c d' := by
  obtain ⟨S, fr, h1, hlt⟩ := h
  have fin : ∀ d2 : Data, RGeo c S fr d2 → d2.next = d.next + 1 → pageCount d2.wbuf = 0 → d' = d2 → RHome c d' := by
    intro d2 g1 g2 g3 g4
    subst g4
    have hd : ¬ c.B ∣ d'.next := fun hd => hq hd (by omega) g3
    refine ⟨S, fr, g1, ?_⟩
    rcases Nat.lt_or_ge d'.next S with hx | hx
    · exact hx
    · exfalso
      apply hd
      rw [show d'.next = S by omega]
      exact h1.dvd
  unfold EDB.flushX at e
  split_ifs at e
  · cases e; exact ⟨S, fr, h1, hlt⟩
  · obtain ⟨⟨d2, pn⟩, h2, e⟩ := Res.bind_eq_ok e
    obtain ⟨h5, h6, h7⟩ := h1.writePage G hio hlt h2
    subst h7
    simp only at e
    obtain ⟨⟨x2, ok⟩, h8, e⟩ := Res.bind_eq_ok e
    have hok : ok = true := by
      unfold idxFlush at h8
      obtain ⟨x3, -, h8⟩ := Res.bind_eq_ok h8
      have hw : (writeIdx c x3).2 = some x3.next := by
        unfold writeIdx
        simp only [write_run hio, erase_run hio, if_true]
        split_ifs <;> rfl
      rcases hx : writeIdx c x3 with ⟨x4, o⟩
      rw [hx] at h8 hw
      simp only at hw
      subst hw
      cases h8
      rfl
    subst hok
    cases e
    exact fin { indexPage c d2 (some d.next) with wbuf := initPage c } ((indexPage_geo h5 _).congr rfl rfl rfl rfl rfl rfl)
      (by show (indexPage c d2 _).next = _; rw [indexPage_next, h6])
      (count_init c) rfl
  · obtain ⟨⟨d2, pn⟩, h2, e⟩ := Res.bind_eq_ok e
    obtain ⟨h5, h6, h7⟩ := h1.writePage G hio hlt h2
    subst h7
    cases e
    exact fin { indexPage c d2 (some d.next) with wbuf := initPage c } ((indexPage_geo h5 _).congr rfl rfl rfl rfl rfl rfl)
      (by show (indexPage c d2 _).next = _; rw [indexPage_next, h6])
      (count_init c) rfl

theorem RHome.call (G : RlcGeo c) (hB2 : 2 ≤ c.B) (hio : ∀ n, c.ioOk n = true) (hbs : c.binSearch = false)
    (hr : c.rlc = true) {s t : Trio} (h : RHome c s.d) (e : Call c s t)
    (hq : c.B ∣ t.d.next → t.d.next ≠ s.d.next → pageCount t.d.wbuf ≠ 0) : RHome c t.d := by
  cases e with
  | put key data loc e => exact RHome.putX G hB2 hio hbs hr h e
  | putVar key data vd e =>
    unfold putVar at e
    by_cases hu : c.useVdata = true
    · rw [if_pos hu] at e
      cases vd with
      | none =>
        simp only at e
        obtain ⟨⟨d1, x1, r1, w1⟩, h1, e⟩ := Res.bind_eq_ok e
        cases e
        exact RHome.putX G hB2 hio hbs hr h h1
      | some bs =>
        simp only at e
        obtain ⟨⟨d1, x1, r1, w1⟩, h1, e⟩ := Res.bind_eq_ok e
        have h2 := RHome.putX G hB2 hio hbs hr h h1
        simp only at e
        split_ifs at e
        · cases e; exact h2
        · obtain ⟨v1, -, e⟩ := Res.bind_eq_ok e
          cases e; exact h2
    · rw [if_neg hu] at e; cases e; exact h
  | flush e => exact RHome.flushX G hio h e hq
  | flushAll e =>
    unfold flushV at e
    obtain ⟨⟨d1, x1, r1, w1⟩, h1, e⟩ := Res.bind_eq_ok e
    simp only at e
    split_ifs at e
    · cases e; exact RHome.flushX G hio h h1 hq
    · cases e; exact RHome.flushX G hio h h1 hq
  | flushVar => exact h
  | get key e => exact h.same (get_same e)
  | @getVar d x v d' v' r out st key e =>
    unfold getVar at e
    by_cases hu : c.useVdata = true
    · rw [if_pos hu] at e
      obtain ⟨⟨r1, o1⟩, -, e⟩ := Res.bind_eq_ok e
      simp only at e
      split_ifs at e
      · obtain ⟨⟨v1, s1, t1⟩, h2, e⟩ := Res.bind_eq_ok e
        cases e
        exact h.same ⟨rfl, rfl, rfl, rfl, rfl, rfl, rfl, rfl⟩
      · obtain ⟨⟨d1, r2, o2⟩, h1, e⟩ := Res.bind_eq_ok e
        have hd := get_same h1
        simp only at e
        split_ifs at e
        · obtain ⟨o3, -, e⟩ := Res.bind_eq_ok e
          cases o3 with
          | none => cases e
          | some i =>
            simp only at e
            split_ifs at e
            obtain ⟨⟨v1, s1, t1⟩, h2, e⟩ := Res.bind_eq_ok e
            cases e
            exact h.same hd
        · cases e; exact h.same hd
    · rw [if_neg hu] at e; cases e; exact h
  | next it e => exact h.same (nextLoop_same _ _ _ _ _ _ _ _ e)
  | nextVar it e =>
    unfold EDB.nextVar at e
    by_cases hu : c.useVdata = true
    · rw [if_pos hu] at e
      obtain ⟨⟨d1, x1, i1, o1⟩, h1, e⟩ := Res.bind_eq_ok e
      have h2 := RHome.same h (nextLoop_same _ _ _ _ _ _ _ _ h1)
      cases o1 with
      | none => cases e; exact h2
      | some r =>
        simp only at e
        obtain ⟨⟨v1, s1, t1⟩, -, e⟩ := Res.bind_eq_ok e
        cases e
        refine RHome.same h2 ?_
        show SameButCache d1 (if _ then _ else _)
        split_ifs
        · exact ⟨rfl, rfl, rfl, rfl, rfl, rfl, rfl, rfl⟩
        · exact SameButCache.refl d1
    · rw [if_neg hu] at e; cases e; exact h
  | read st len e => exact h

end

end EDB
