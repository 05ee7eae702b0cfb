import Verif.Proofs.LooseRing
import Verif.Proofs.VarReach
import Verif.Proofs.VarReopen
import Verif.Proofs.RingUse
import Verif.Spec.Kept

/-! Helper lemmas: variable data of a table that was opened again, the variable data file having wrapped. -/

namespace EDB

open Spec (Log VLog VOp VOut Rec)

/-- A table that was opened again and from which is only read.  The stream `g.s` is stored in pages `g.vmin`, …, `w - 1`. -/
structure ReTab (c : Cfg) (lo K mn w : Nat) (g : Gh) (d : Data) (v : Var) (L : Log) : Prop where
  tab : TableM c lo K mn d L
  min : d.min = mn
  buf : L.buf = []
  sync : VSync v
  holds : ∀ j, g.vmin ≤ j → j < w → ∃ p, v.dev.file (j % c.numVar) = some p ∧
    ∀ o, o < c.vcap → p (c.vhdr + o) = g.s.getD (j * c.vcap + o) 0
  ok : ∀ e ∈ g.es, EntOk c g.s e
  bound : ∀ e ∈ g.es, e.key + 1 < K
  sep : ∀ e ∈ g.es, e.fin ≤ w * c.vcap → (∃ r ∈ L.live mn, r.1 = e.key) →
    (v.minRec % 256 ^ c.keySize ≤ e.key ↔ g.vmin ≤ e.a / c.vcap) ∧ v.minRec % 256 ^ c.keySize < K
  locs : ∀ n, mn ≤ n → n < d.next → ∀ p, d.dev.file (n % c.N) = some p → LocOk c g.es p ∧ DataBelow c g.es (w * c.vcap) p

section
variable {c : Cfg} {lo lv K m mn w : Nat} {M : Mode} {d : Data} {v : Var} {l : VLog} {L : Log} {g : Gh}

theorem ReTab.holdsAt (T : ReTab c lo K mn w g d v L) {q n : Nat} (h1 : g.vmin ≤ q / c.vcap)
    (h2 : q + n ≤ w * c.vcap) : Holds c v g.s q n := by
  intro j j1 j2
  have hj : j < w := by
    by_contra hcon
    have := Nat.mul_le_mul_right c.vcap (show w ≤ j by omega)
    omega
  exact T.holds j (by omega) hj

theorem ReTab.read (T : ReTab c lo K mn w g d v L) {d' : Data} (h : SameButCache d d') (S : Sim c lo K mn d' L) :
    ReTab c lo K mn w g d' v L :=
  ⟨T.tab.congr h S, h.min.trans T.min, T.buf, T.sync, T.holds, T.ok, T.bound, T.sep, by rw [h.next, h.dev]; exact T.locs⟩

theorem ReTab.recache (T : ReTab c lo K mn w g d v L) {v' : Var} (h : VSame v v') (hs : VSync v') : ReTab c lo K mn w g d v' L := by
  have h1 : v'.minRec = v.minRec := by rw [h]
  exact ⟨T.tab, T.min, T.buf, hs, by rw [h.dev]; exact T.holds, T.ok, T.bound, by rw [h1]; exact T.sep, T.locs⟩

theorem ReTab.get (hok : c.Ok K) {P : Nat} (hB : Bounds c lo K P) (T : ReTab c lo K mn w g d v L) (hP : d.next ≤ P) (x : Idx)
    {key : Nat} (hk : key < K) :
    ∃ d' r out, stepV c d x v (.get key) = .ok (d', x, v, .got r out) ∧ ReTab c lo K mn w g d' v L ∧ d'.next = d.next ∧
      Spec.Out.got r out = Spec.answer (L.live mn) key := by
  have hcount : pageCount d.wbuf = 0 := by rw [← recs_length c, T.tab.sim.buf, T.buf]; rfl
  obtain ⟨d', code, out, h1, h2, h3, h4⟩ := get_ok hok.cmp hok.N0 hB hok.spline hk T.tab.sim hP (by
    intro i hi
    rw [T.buf, List.length_nil] at hi
    omega)
  refine ⟨d', code, out, ?_, T.read h2 h3, h2.next, by rw [← T.min]; exact answer_of h4⟩
  simp only [stepV]
  rw [h1]
  rfl

theorem ReTab.getVar (hok : c.Ok K) (hv : c.VFile) {P : Nat} (hB : Bounds c lo K P) (h128 : c.maxRec ≤ 128) (T : ReTab c lo K mn w g d v L)
    (hP : d.next ≤ P) (x : Idx) {key : Nat} (hk : key < K) :
    ∃ d' v' r out bs, stepV c d x v (.getVar key) = .ok (d', x, v', .gotVar r out bs) ∧ ReTab c lo K mn w g d' v' L ∧
      d'.next = d.next ∧
      (match Spec.lookup (L.live mn) key with
       | none => r = -1 ∧ out = none ∧ bs = none
       | some a => out = some a ∧ VarAns c g key r bs ∧ ∀ e ∈ g.es, e.key = key → e.fin ≤ w * c.vcap) := by
  have hcount : pageCount d.wbuf = 0 := by rw [← recs_length c, T.tab.sim.buf, T.buf]; rfl
  have hsb : searchBuffer c d.wbuf key = .ok (-1, none) := by
    unfold searchBuffer
    rw [if_pos hcount]
  obtain ⟨d', code, out, h1, h2, h3, h4⟩ := get_ok hok.cmp hok.N0 hB hok.spline hk T.tab.sim hP (by
    intro i hi
    rw [T.buf, List.length_nil] at hi
    omega)
  have T1 := T.read h2 h3
  simp only [stepV, EDB.getVar, hv.vdata, if_true]
  rw [hsb]
  simp only [Res.ok_bind]
  rw [if_neg (by simp), h1]
  simp only [Res.ok_bind]
  rw [T.min] at h4
  rcases h4 with ⟨a, a1, a2, a3⟩ | ⟨a1, a2, a3⟩
  · subst a2 a3
    rw [if_pos rfl, a1]
    obtain ⟨q, i, q1, q2, q3, q4, q5, q6⟩ := get_page hok.cmp hok.N0 hB hok.spline hk T.tab.sim hP (by rw [T.buf]; simp) h1
    rw [q4]
    simp only [Res.ok_bind]
    obtain ⟨w1, w2⟩ := T1.locs q (by rw [← T.min]; exact q1) (by rw [h2.next]; exact q2) d'.rbuf q3
    have hi : i < c.maxRec := by
      obtain ⟨p, z1, z2, -⟩ := T1.tab.sim.stored q (by rw [h2.min]; exact q1) (by rw [← T.tab.sim.next]; exact q2)
      rw [q3] at z1
      cases z1
      have hlen := T.tab.cap.1 _ (List.getElem_mem (show q < L.pages.length by rw [← T.tab.sim.next]; exact q2))
      rw [← z2, recs_length] at hlen
      omega
    rw [if_neg (by unfold toInt8; simp only; rw [Nat.mod_eq_of_lt (by omega), if_pos (by omega)]; omega)]
    have hbelow : ∀ e ∈ g.es, e.key = key → e.fin ≤ w * c.vcap := fun e he hk => w2 i q5 e he (by rw [q6]; exact hk)
    rcases w1 i q5 with ⟨z1, z2⟩ | ⟨e, e1, e2, e3⟩
    · have hset : setupStream c d' v key i = .ok (v, 0, none) := by
        unfold setupStream
        simp only
        rw [if_pos z1]
      rw [hset]
      simp only [Res.ok_bind, EDB.readAll]
      exact ⟨d', v, _, _, _, rfl, T1, h2.next, rfl, Or.inl ⟨rfl, rfl, by rw [q6] at z2; exact z2⟩, hbelow⟩
    · rw [q6] at e2
      subst e2
      have hfin := hbelow e e1 rfl
      have hr : ∃ r ∈ L.live mn, r.1 = e.key := by
        obtain ⟨r, r1, r2⟩ := slot_in_live T1.tab.sim (n := q) (by rw [h2.min]; exact q1) (by rw [h2.next]; exact q2) q3 q5
        rw [h2.min, T.min] at r1
        exact ⟨r, r1, by rw [r2, q6]⟩
      obtain ⟨m1, m2⟩ := T.sep e e1 hfin hr
      obtain ⟨s1, s2⟩ := setup_core (d := d') (i := i) hv hok.cmp T.sync (T.ok e e1) (T.bound e e1) m1 m2
        (fun hle => T.holdsAt hle (by unfold Ent.fin at hfin; omega)) e3
      by_cases hlt : e.a / c.vcap < g.vmin
      · rw [s1 hlt]
        simp only [Res.ok_bind, EDB.readAll]
        exact ⟨d', v, _, _, _, rfl, T1, h2.next, rfl, Or.inr ⟨e, e1, rfl, Or.inl ⟨hlt, rfl, rfl⟩⟩, hbelow⟩
      · obtain ⟨v1, st, t1, t2, t3, t4, t5, t6⟩ := s2 (by omega)
        rw [t1]
        simp only [Res.ok_bind]
        obtain ⟨v2, r1, r2, r3⟩ := readAll_core hv t3 (T.ok e e1) ((T.holdsAt (q := e.a + 4) (n := e.bs.length)
          (le_trans (show g.vmin ≤ e.a / c.vcap by omega) (Nat.div_le_div_right (by omega))) (by unfold Ent.fin at hfin; omega)).same t2) t4 t5 t6
        rw [r1]
        simp only [Res.ok_bind]
        exact ⟨d', v2, _, _, _, rfl, (T1.recache t2 t3).recache r2 r3, h2.next, rfl,
          Or.inr ⟨e, e1, rfl, Or.inr ⟨by omega, rfl, rfl⟩⟩, hbelow⟩
  · subst a2 a3
    rw [if_neg (by decide), a1]
    simp only [Res.ok_bind, EDB.readAll]
    exact ⟨d', v, _, _, _, rfl, T1, h2.next, rfl, rfl, rfl⟩

/-! ### The journal of the data file -/

theorem VTableM.journal {lv : Nat} {E : Mode} (hok : c.Ok K) (hv : c.VFile) {l' : VLog} {g' : Gh} {op : VOp} {o : VOut} {x x' : Idx} {d' : Data} {v' : Var}
    (T : VTableM c lo lv K mn E d v l g) (J : Journal c d l.log) (h32 : d.next < 2 ^ 32) (hobs : VObs c d l g' op o l')
    (e : stepV c d x v op = .ok (d', x', v', o)) : Journal c d' l'.log := by
  have hcount : pageCount d.wbuf = l.log.buf.length := by rw [← T.tab.sim.buf, recs_length]
  have hcap := hok.cap
  have l3 : (l'.log.pages = l.log.pages ∧ (completesV c d op → op ≠ .flush ∧ o ≠ .code 0) ∨
        completesV c d op ∧ o = .code 0 ∧ l'.log.pages = l.log.pages ++ [l.log.buf] ∧ l.log.buf ≠ []) := by
    cases op with
    | put k a b =>
      rcases hobs with ⟨rfl, rfl⟩ | ⟨rfl, rfl, -⟩
      · unfold VLog.put Log.put
        simp only [completesV]
        by_cases hf : l.log.buf.length ≥ c.maxRec
        · right
          rw [if_pos hf]
          exact ⟨by omega, trivial, rfl, fun h => by rw [h, List.length_nil] at hf; omega⟩
        · left
          rw [if_neg hf]
          exact ⟨rfl, fun h => by omega⟩
      · exact Or.inl ⟨rfl, fun _ => ⟨by simp, by simp⟩⟩
    | flush =>
      obtain ⟨rfl, rfl⟩ := hobs
      simp only [completesV]
      unfold Log.flush
      by_cases hf : l.log.buf = []
      · left
        rw [if_pos hf]
        refine ⟨rfl, fun h => ?_⟩
        rw [hf, List.length_nil] at hcount
        exact absurd hcount h
      · right
        rw [if_neg hf]
        have := List.length_pos_iff.mpr hf
        exact ⟨by omega, trivial, rfl, hf⟩
    | get k =>
      obtain ⟨rfl, -⟩ := hobs
      exact Or.inl ⟨rfl, fun h => h.elim⟩
    | getVar k =>
      obtain ⟨rfl, -⟩ := hobs
      exact Or.inl ⟨rfl, fun h => h.elim⟩
  have sealedJ := fun h4 : l.log.buf ≠ [] => J.sealed hok T.tab.room T.tab.sim.next T.tab.sim.buf h32 h4 T.tab.cap.2
  rcases data_step hok hv e with ⟨h1, h2⟩ | ⟨h1, h2, h3⟩
  · rcases l3 with ⟨m1, -⟩ | ⟨m1, m2, m3⟩
    · exact (J.congr h1).pages_eq m1
    · exact absurd m2 (h2 m1).2
  · rcases l3 with ⟨m1, m2⟩ | ⟨m1, m2, m3, m4⟩
    · obtain ⟨q1, q2⟩ := m2 h2
      exact absurd (h3 q1) q2
    · exact ((sealedJ m4).congr (d' := d') (by rw [h1]; rfl)).pages_eq m3

/-! ### Opening -/

theorem firstKept_eq {N B n : Nat} (hB : 0 < B) (hd : B ∣ N) (h : N ≤ n + foundSpace N B n) :
    Spec.firstKept N B n = n + foundSpace N B n - N := by
  unfold Spec.firstKept foundSpace
  split_ifs <;> omega

/-- The first page whose data is still delivered. -/
def firstRead (N B n : Nat) : Nat := if Spec.firstKept N B n = 0 then 0 else Spec.firstKept N B n + 1

theorem firstKept_mono {N B n n' : Nat} (hB : 0 < B) (hd : B ∣ N) (h : n ≤ n') : Spec.firstKept N B n ≤ Spec.firstKept N B n' := by
  unfold Spec.firstKept
  have a1 := Nat.div_add_mod n B
  have a2 := Nat.div_add_mod n' B
  have b1 := Nat.mod_lt n hB
  have b2 := Nat.mod_lt n' hB
  have hq := Nat.div_le_div_right (c := B) h
  have hm := Nat.mul_le_mul_left B hq
  by_cases h1 : n ≤ N
  · rw [if_pos h1]; exact Nat.zero_le _
  rw [if_neg h1, if_neg (by omega : ¬ n' ≤ N)]
  by_cases h2 : n % N = 0
  · rw [if_pos h2]
    split_ifs <;> omega
  · rw [if_neg h2]
    by_cases h3 : n' % N = 0
    · rw [if_pos h3]
      have h4 : n' % B = 0 := Nat.mod_eq_zero_of_dvd (dvd_trans hd (Nat.dvd_of_mod_eq_zero h3))
      have h5 : n ≠ n' := fun e => h2 (e ▸ h3)
      have h6 : n / B < n' / B := by
        by_contra hcon
        have : n / B = n' / B := by omega
        rw [this] at a1
        omega
      have h7 := Nat.mul_le_mul_left B (show n / B + 1 ≤ n' / B by omega)
      rw [Nat.mul_add, Nat.mul_one] at h7
      omega
    · rw [if_neg h3]
      omega

theorem writes_prefix {a b : List Ev} (h : a <+: b) : Spec.writes a <+: Spec.writes b := by
  obtain ⟨t, rfl⟩ := h
  rw [writes_append]
  exact List.prefix_append _ _

/-- The pages a ring keeps are in the file. -/
theorem LRing.keeps {N B n a : Nat} {log : List Ev} (h : LRing N B True log n a) (hB : 0 < B) (hd : B ∣ N) (hN : 0 < N)
    {fx : Option Page → Option Page} (hid : fx = id) {j ph : Nat} {p : Page} (hw : (Spec.writes log)[j]? = some (ph, p))
    (hj : Spec.firstKept N B n ≤ j) : ph = j % N ∧ Spec.image fx log (j % N) = some p := by
  have h0 : 0 < n := by
    have := (List.getElem?_eq_some_iff.mp hw).1
    rw [h.count] at this
    omega
  have hml := Nat.mod_lt n hB
  have hs : n + foundSpace N B n ≤ j + N := by
    unfold Spec.firstKept at hj
    unfold foundSpace
    split_ifs at hj ⊢ <;> omega
  obtain ⟨h1, h2⟩ := ((h.reopen (fun _ _ => trivial)).resumes hB hd hN (fx := fx) (fun _ q => by rw [hid]; rfl)).held _ ph p hw hs
  exact ⟨h1, by rw [← h1]; exact h2⟩

/-- Both files after a power failure: data pages `pages`; `n` variable pages, the first of the stream `g.s`, with the entries `g.es`. -/
structure CutAt (c : Cfg) (lo K P : Nat) (g : Gh) (D V : Dev) (pages : List (List Rec)) (n : Nat) : Prop where
  jr : ∃ d : Data, d.dev = D ∧ Journal c d ⟨pages, []⟩
  sorted : (Log.mk pages []).all.Pairwise (fun r s => r.1 < s.1)
  bound : ∀ r ∈ (Log.mk pages []).all, lo ≤ r.1 ∧ r.1 < K
  full : ∀ pg ∈ pages, pg ≠ []
  cap : Capped c.maxRec ⟨pages, []⟩
  fewer : pages.length < P
  spl : Spec.recovered c.N c.B pages.length = 0 ∨ c.maxErr ≤ 1
  locs : ∀ m, Spec.recovered c.N c.B pages.length ≤ m → m < pages.length → ∀ p, D.file (m % c.N) = some p →
    LocOk c g.es p ∧ DataBelow c g.es (n * c.vcap) p
  log : ∃ a, LRing c.numVar c.B True V.log n a
  file : V.file = Spec.image c.eraseFx V.log
  few : n + 1 < 2 ^ 32
  lone : n = 1 → ¬ LonePage c V
  page : ∀ j, j < n → ∃ p, (Spec.writes V.log)[j]? = some (j % c.numVar, p) ∧
    (∀ o, o < c.vcap → p (c.vhdr + o) = g.s.getD (j * c.vcap + o) 0) ∧ vkey c p = g.ks.getD j 0
  sep : ∀ j, j < n → g.ks.getD j 0 + 1 < K ∧ ∀ e ∈ g.es, e.a / c.vcap ≤ j ↔ e.key ≤ g.ks.getD j 0
  ents : EntsOk c g
  keys : ∀ e ∈ g.es, e.key + 1 < K
  slen : n * c.vcap ≤ g.s.length
  klen : n ≤ g.ks.length

theorem base_le_kept {E : Mode} (hv : c.VFile) (I : VInv c E lv K g v) (R : VarRing c (LRing c.numVar c.B True) v) :
    vbase c v ≤ Spec.firstKept c.numVar c.B v.next := by
  have hB0 := hv.B0
  have hsum := I.sim.sum
  have hdvd := I.sim.dvd
  have htwo := hv.two
  by_cases hz : vbase c v = 0
  · omega
  rcases R.2.space_le hB0 hv.dvd with h1 | ⟨h1, h2⟩
  · rw [firstKept_eq hB0 hv.dvd (by omega)]
    omega
  · rcases I.lim.2 with ⟨-, h3⟩ | ⟨-, -, -, h3⟩
    · rcases h3 with h3 | h3 <;> omega
    · rcases h3 with h3 | h3
      · omega
      · exact absurd h1 h3

/-- The pages kept. -/
theorem CutAt.stored (hv : c.VFile) (hid : c.eraseFx = id) {P n : Nat} {D V : Dev} {pages : List (List Rec)}
    (H : CutAt c lo K P g D V pages n) {j : Nat} (h1 : Spec.firstKept c.numVar c.B n ≤ j) (h2 : j < n) :
    ∃ p, (Spec.writes V.log)[j]? = some (j % c.numVar, p) ∧ V.file (j % c.numVar) = some p ∧
      (∀ o, o < c.vcap → p (c.vhdr + o) = g.s.getD (j * c.vcap + o) 0) ∧ vkey c p = g.ks.getD j 0 := by
  obtain ⟨a, LR⟩ := H.log
  obtain ⟨p, p1, p2, p3⟩ := H.page j h2
  have q3 := (LR.keeps hv.B0 hv.dvd hv.nv hid p1 h1).2
  rw [← H.file] at q3
  exact ⟨p, p1, q3, p2, p3⟩

theorem firstKept_lt (hv : c.VFile) {n : Nat} (hz : Spec.firstKept c.numVar c.B n ≠ 0) : Spec.firstKept c.numVar c.B n < n := by
  have hB0 := hv.B0
  have hml := Nat.mod_lt n hB0
  have := hv.two
  unfold Spec.firstKept at hz ⊢
  split_ifs at hz ⊢ <;> omega

/-- The pages that are given up are those below `firstRead`. -/
theorem CutAt.givenUp (hv : c.VFile) (hid : c.eraseFx = id) {P n : Nat} {D V : Dev} {pages : List (List Rec)}
    (H : CutAt c lo K P g D V pages n) {e : Ent} (he : e ∈ g.es) :
    Spec.GivenUp c.keySize c.numVar c.B V.log e.key ↔ e.a / c.vcap < firstRead c.numVar c.B n := by
  obtain ⟨a, LR⟩ := H.log
  unfold Spec.GivenUp firstRead
  rw [LR.count]
  by_cases hz : Spec.firstKept c.numVar c.B n = 0
  · rw [if_pos hz, hz]
    exact ⟨fun h => absurd h.1 (Nat.lt_irrefl 0), fun h => absurd h (Nat.not_lt_zero _)⟩
  rw [if_neg hz]
  have hlt := firstKept_lt hv hz
  obtain ⟨p, hx, -, -, q3⟩ := H.stored hv hid (le_refl _) hlt
  obtain ⟨z1, z2⟩ := H.sep _ hlt
  have hkey : leNat (rd p 4 c.keySize) = g.ks.getD (Spec.firstKept c.numVar c.B n) 0 := q3
  constructor
  · rintro ⟨-, ph', p', y1, y2⟩
    rw [hx] at y1
    cases y1
    rw [hkey] at y2
    have := (z2 e he).mpr y2
    omega
  · intro h
    refine ⟨by omega, _, p, hx, ?_⟩
    rw [hkey]
    exact (z2 e he).mp (by omega)

/-- What the counters of the variable data file are set to. -/
def OpenedV (c : Cfg) (n : Nat) (V : Dev) (g : Gh) (L : Log) (mn : Nat) (v' : Var) : Prop :=
  (L.pages = [] ∧ ∃ vrb hvf, v' = Var.fresh c vrb hvf) ∨
  (v'.dev = V ∧ v'.next = n ∧ v'.wbuf = (fun _ => 0) ∧ v'.loc = n % c.numVar * c.pageSize + c.vhdr ∧ v'.avail = foundSpace c.numVar c.B n ∧
    ((n = 0 ∧ v'.minRec = 2 ^ 64 - 1) ∨
     (0 < n ∧ Spec.firstKept c.numVar c.B n = 0 ∧ ∃ r ∈ L.live mn, v'.minRec = r.1 ∧ ∀ r' ∈ L.live mn, r.1 ≤ r'.1) ∨
     (0 < n ∧ Spec.firstKept c.numVar c.B n ≠ 0 ∧
        v'.minRec % 256 ^ c.keySize = g.ks.getD (Spec.firstKept c.numVar c.B n) 0 + 1)))

theorem CutAt.reopened (hok : c.Ok K) (hv : c.VFile) {P n : Nat} (hB : Bounds c lo K P) (h127 : c.maxRec ≤ 127) (hN32 : c.N < 2 ^ 32)
    (hid : c.eraseFx = id) {D V : Dev} {pages : List (List Rec)} (H : CutAt c lo K P g D V pages n)
    (rb vrb : Page) (sm : Nat → Nat × Nat) (hvf : Bool) :
    ∃ d' v' w, reopenV c D V rb sm vrb hvf = (d', v', 0) ∧ d'.next = pages.length ∧ d'.dev = D ∧
      OpenedV c n V g ⟨pages, []⟩ (Spec.recovered c.N c.B pages.length) v' ∧
      ReTab c lo K (Spec.recovered c.N c.B pages.length) w ⟨firstRead c.numVar c.B n, g.s, g.ks, g.es⟩ d' v' ⟨pages, []⟩ := by
  obtain ⟨dj, rfl, J⟩ := H.jr
  obtain ⟨a, LR⟩ := H.log
  have hw : (Spec.writes dj.dev.log).length = pages.length := by
    have := J.count
    rw [wrote_length] at this
    exact this
  have hcd : cutDev c dj.dev dj.dev.log.length = dj.dev := by
    unfold cutDev
    rw [List.take_length]
    have := J.file_eq
    rw [← this]
  have hcl : cutLog ⟨pages, []⟩ dj.dev dj.dev.log.length = ⟨pages, []⟩ := by
    unfold cutLog
    rw [List.take_length, hw, List.take_length]
  obtain ⟨d'', n'', e1, g2, -, e2, e3, e4, e5, -, e6, e7⟩ := reopen_ok hok hB (le_of_lt hB.pages) h127 hN32
      (fun q => ⟨q, by rw [hid]; rfl, Or.inl rfl⟩) J H.sorted H.bound H.full H.cap H.fewer
      dj.dev.log.length (Or.inr fun q => by rw [hid]; rfl) rb sm
  simp only [List.take_length, hw] at g2
  subst g2
  have e7 := e7 H.spl
  unfold EDB.reopen at e1
  rw [hcd] at e1 e3
  rw [hcl] at e7
  obtain ⟨mn, hmn⟩ : ∃ mn, mn = Spec.recovered c.N c.B pages.length := ⟨_, rfl⟩
  rw [← hmn] at e5 e7 ⊢
  have hlocs : ∀ dd : Data, dd.dev = dj.dev → dd.next = pages.length → ∀ i, mn ≤ i → i < dd.next → ∀ p, dd.dev.file (i % c.N) = some p →
      LocOk c g.es p ∧ DataBelow c g.es (n * c.vcap) p := by
    intro dd h1 h2 i hm hn p hp
    rw [h1] at hp
    exact H.locs i (by omega) (by omega) p hp
  have hB0 := hv.B0
  have htwo := hv.two
  rcases Nat.eq_zero_or_pos pages.length with h0 | h0
  · have hlive : (Log.mk pages []).live mn = [] := by
      unfold Log.live
      rw [List.length_eq_zero_iff.mp h0]
      simp
    refine ⟨d'', Var.fresh c vrb hvf, 0, ?_, by omega, e3, Or.inl ⟨List.length_eq_zero_iff.mp h0, vrb, hvf, rfl⟩, e7, e5, rfl, ?_, ?_,
      H.ents.ok, H.keys, ?_, ?_⟩
    · unfold reopenV
      simp only [e1]
      rw [if_neg (by simp), if_neg (by rw [e4, h0, hok.plain]; simp)]
    · intro ph h; simp [Var.fresh] at h
    · intro j _ h; exact absurd h (Nat.not_lt_zero _)
    · intro e he hf hr
      obtain ⟨r, hr, -⟩ := hr
      rw [hlive] at hr
      cases hr
    · intro n _ hn; omega
  · have hBN : c.B < c.N := by have := hok.two; have := hok.B0; omega
    have hmlt : mn < pages.length := by
      rw [hmn]
      exact recovered_lt hok.B0 hok.dvd hBN h0
    obtain ⟨pg0, hpg0⟩ : ∃ pg0, pages[mn]'hmlt = pg0 := ⟨_, rfl⟩
    have hne0 : pg0 ≠ [] := by rw [← hpg0]; exact H.full _ (List.getElem_mem _)
    obtain ⟨r0, tl, hpg⟩ := List.exists_cons_of_ne_nil hne0
    have hall : ∃ rest, (Log.mk pages []).live mn = r0 :: rest := by
      unfold Log.live
      simp only
      rw [List.drop_eq_getElem_cons hmlt, hpg0, hpg, List.flatten_cons, List.append_assoc, List.cons_append]
      exact ⟨_, rfl⟩
    obtain ⟨rest, hall⟩ := hall
    have hlsort := Log_live_sorted e7.sim.sorted mn
    have hr0 : r0 ∈ (Log.mk pages []).all := mem_all_of_live (m := mn) (by rw [hall]; simp)
    have hr0K := (e7.sim.bound r0 hr0).2
    have hge : ∀ r ∈ (Log.mk pages []).live mn, r0.1 ≤ r.1 := by
      intro r hr
      rw [hall] at hlsort hr
      rcases List.mem_cons.mp hr with h | h
      · rw [h]
      · exact le_of_lt ((List.pairwise_cons.mp hlsort).1 r h)
    obtain ⟨p0, p1, p2, -⟩ := e7.sim.stored mn (by omega) hmlt
    simp only [hpg0, hpg] at p2
    have hmk : pageMinKey c p0 = r0.1 := pageMinKey_eq p2
    have hq : d''.dev.file (d''.min % c.N) = some p0 := by rw [e5]; exact p1
    have hS := readPage_same d'' (d''.min % c.N)
    have hF : Fresh (readPage d'' (d''.min % c.N)).1 := readPage_fresh e6
    have e8 : TableM c lo K mn (readPage d'' (d''.min % c.N)).1 ⟨pages, []⟩ := by
      refine e7.congr hS (e7.sim.congr_cache hS ?_ ?_)
      · intro ph hph
        rw [(readPage_some e6 hq).2.2.1] at hph
        cases hph
        rw [e5]
        have := Nat.mod_le mn c.N
        exact ⟨Nat.mod_lt _ hok.N0, by rw [e4]; omega⟩
      · intro ph hph j _ _ _
        have := hF ph hph
        rw [hS.dev] at this
        exact this
    have hsync : VSync (Var.opening c V vrb hvf) := by intro ph h; simp [Var.opening, Var.fresh] at h
    have hreopen : reopenV c dj.dev V rb sm vrb hvf = recoverVar c d'' (Var.opening c V vrb hvf) := by
      unfold reopenV
      simp only [e1]
      rw [if_neg (by simp), if_pos (Or.inl (by omega))]
    rcases Nat.eq_zero_or_pos n with hw0 | hw0
    · refine ⟨d'', Var.opening c V vrb hvf, 0, ?_, by omega, e3, Or.inr ⟨rfl, hw0.symm, rfl, by simp [hw0, Var.opening, Var.fresh],
        by simp [hw0, Var.opening, Var.fresh, foundSpace], Or.inl ⟨hw0, rfl⟩⟩, e7, e5, rfl, hsync, ?_, H.ents.ok, H.keys, ?_, ?_⟩
      · rw [hreopen]
        refine recoverVar_empty hsync ⟨fun j h => absurd h (Nat.not_lt_zero _), fun j _ => ?_⟩
        show V.file j = none
        rw [H.file]
        exact LR.rest hB0 hv.dvd _ (by omega) j (by omega)
      · intro j _ h; exact absurd h (Nat.not_lt_zero _)
      · intro e he hf
        unfold Ent.fin at hf
        omega
      · have := hlocs d'' e3 (by omega)
        rw [hw0] at this
        exact this
    · -- the ring
      have hN := hv.nv
      have hfile : Spec.image c.eraseFx V.log = V.file := H.file.symm
      have hkeep : True → ∀ p, c.eraseFx (some p) = some p := fun _ p => by rw [hid]; rfl
      have hview := LR.view hB0 hv.dvd hN H.few (fun _ _ => trivial) (fx := c.eraseFx)
        (fun p => ⟨p, by rw [hid]; rfl, Or.inl rfl⟩) hkeep
      rw [hfile] at hview
      have hNV : c.numVar < 2 ^ 32 := by
        have hm := hv.mem
        exact lt_of_le_of_lt (Nat.le_mul_of_pos_right _ (by have := hv.ps; have := hv.cap4; omega)) hm
      obtain ⟨u, u1, u2, u3, u4, u5⟩ := recoverVar_ring (d := d'') (v := Var.opening c V vrb hvf) hB0 hv.dvd (by omega) hNV H.few hw0 hsync hview (by
        intro h1 p hp hk
        refine H.lone h1 ⟨?_, p, hp, hk⟩
        rw [H.file]
        exact LR.rest hB0 hv.dvd _ (by omega) 1 (by omega))
      have hud : u.dev = V := by rw [u2]; rfl
      have hfs : c.numVar ≤ n + foundSpace c.numVar c.B n := by
        unfold foundSpace
        split_ifs with h1 h2
        · omega
        · omega
        · omega
      have hfk := firstKept_eq hB0 hv.dvd hfs
      rw [← hfk] at u3 u4
      have hstored : ∀ j, firstRead c.numVar c.B n ≤ j → j < n → ∃ p, V.file (j % c.numVar) = some p ∧
          ∀ o, o < c.vcap → p (c.vhdr + o) = g.s.getD (j * c.vcap + o) 0 := by
        intro j h1 h2
        have h3 : Spec.firstKept c.numVar c.B n ≤ j := by
          unfold firstRead at h1
          split_ifs at h1 <;> omega
        obtain ⟨p, -, q1, q2, -⟩ := H.stored hv hid h3 h2
        exact ⟨p, q1, q2⟩
      have hK := hB.key
      by_cases hz : Spec.firstKept c.numVar c.B n = 0
      · -- nothing was overwritten
        have hset : setMinRec c d'' u = ((readPage d'' (d''.min % c.N)).1, { u with minRec := pageMinKey c p0 }, true) := by
          obtain ⟨f1, f2, -, -⟩ := readPage_some e6 hq
          unfold setMinRec
          rw [if_pos (by rw [u4, hz]), if_neg (by simp [hok.plain])]
          simp only
          rw [f1, f2, if_pos rfl]
        rw [hset, if_pos rfl] at u5
        simp only at u5
        refine ⟨_, _, n, hreopen.trans u5, ?_, hS.dev.trans e3, Or.inr ⟨hud, by rw [u2], by rw [u2]; rfl, rfl, rfl,
          Or.inr (Or.inl ⟨hw0, hz, r0, by rw [hall]; simp, hmk, hge⟩)⟩, e8, by rw [hS.min]; exact e5, rfl, ?_, ?_, H.ents.ok, H.keys, ?_,
          hlocs _ (hS.dev.trans e3) (by rw [hS.next]; omega)⟩
        · rw [hS.next]; omega
        · exact u1
        · show ∀ j, _ → _ → ∃ p, u.dev.file (j % c.numVar) = some p ∧ _
          rw [hud]; exact hstored
        · intro e he _ hr
          obtain ⟨r, r1, r2⟩ := hr
          have h1 := hge r r1
          show (pageMinKey c p0 % 256 ^ c.keySize ≤ e.key ↔ firstRead c.numVar c.B n ≤ e.a / c.vcap) ∧ pageMinKey c p0 % 256 ^ c.keySize < K
          rw [hmk, Nat.mod_eq_of_lt (by omega)]
          unfold firstRead
          rw [if_pos hz]
          exact ⟨⟨fun _ => Nat.zero_le _, fun _ => by omega⟩, hr0K⟩
      · have hfklt := firstKept_lt hv hz
        obtain ⟨pk, -, q1, -, q3⟩ := H.stored hv hid (le_refl _) hfklt
        have hpk : u.rbuf = pk := by
          have : V.file (Spec.firstKept c.numVar c.B n % c.numVar) = some u.rbuf := u3
          rw [q1] at this
          exact (Option.some.inj this).symm
        obtain ⟨hb0, z4⟩ := H.sep _ hfklt
        obtain ⟨k0, hk0⟩ : ∃ k0, k0 = g.ks.getD (Spec.firstKept c.numVar c.B n) 0 := ⟨_, rfl⟩
        rw [← hk0] at hb0 z4 q3
        have hset : setMinRec c d'' u = (d'', { u with minRec := (setLow c.keySize u.minRec (leNat (rd u.rbuf 4 c.keySize)) + 1) % 2 ^ 64 }, true) := by
          unfold setMinRec
          rw [if_neg (by rw [u4]; exact hz)]
        rw [hset, if_pos rfl] at u5
        simp only at u5
        have hkey : leNat (rd u.rbuf 4 c.keySize) = k0 := by
          rw [hpk]
          exact q3
        rw [hkey] at u5
        refine ⟨_, _, n, hreopen.trans u5, by omega, e3, Or.inr ⟨hud, by rw [u2], by rw [u2]; rfl, rfl, rfl,
          Or.inr (Or.inr ⟨hw0, hz, by rw [← hk0]; exact setLow_succ_mod hv _ _ (by omega)⟩)⟩, e7, e5, rfl, ?_, ?_, H.ents.ok, H.keys, ?_,
          hlocs _ e3 (by omega)⟩
        · exact u1
        · show ∀ j, _ → _ → ∃ p, u.dev.file (j % c.numVar) = some p ∧ _
          rw [hud]; exact hstored
        · intro e he _ hr
          show (((setLow c.keySize u.minRec k0 + 1) % 2 ^ 64) % 256 ^ c.keySize ≤ e.key ↔ firstRead c.numVar c.B n ≤ e.a / c.vcap) ∧
            ((setLow c.keySize u.minRec k0 + 1) % 2 ^ 64) % 256 ^ c.keySize < K
          rw [setLow_succ_mod hv _ _ (by omega)]
          unfold firstRead
          rw [if_neg hz]
          refine ⟨⟨fun hle => ?_, fun hle => ?_⟩, hb0⟩
          · by_contra hcon
            have := (z4 e he).mp (by omega)
            omega
          · by_contra hcon
            have := (z4 e he).mpr (by omega)
            omega

/-! ### Power failures -/

theorem VTable.min_le (hok : c.Ok K) (T : VTable c lo K True d v l g) : d.min ≤ Spec.recovered c.N c.B d.next := by
  have h1 := T.tab.dropped_max hok.B0 (dvd_zero _)
  rw [h1, Nat.zero_max, T.tab.sim.next]
  exact dropped_le_recovered _ _ _

theorem VTableM.outMin_le (hok : c.Ok K) (T : VTableM c lo lv K m M d v l g) (hmin : d.min ≤ Spec.recovered c.N c.B d.next) : outMin c d ≤ Spec.recovered c.N c.B (d.next + 1) := by
  unfold outMin
  have hs := T.tab.room.sum
  have hB := hok.B0
  have htwo := hok.two
  split_ifs with ha
  · have hx : d.next = d.min + c.N := by omega
    have hb : d.next % c.B = 0 := Nat.mod_eq_zero_of_dvd (by rw [hx]; exact Nat.dvd_add T.tab.room.dvd hok.dvd)
    by_cases hz : (d.next + 1) % c.N = 0
    · rw [recovered_end hB hok.dvd (by omega) hz]
      have h1 : (d.next + 1) % c.B = 0 := Nat.mod_eq_zero_of_dvd (dvd_trans hok.dvd (Nat.dvd_of_mod_eq_zero hz))
      rw [Nat.add_mod, hb, Nat.zero_add, Nat.mod_mod] at h1
      have := Nat.le_of_dvd (by omega) (Nat.dvd_of_mod_eq_zero h1)
      omega
    · rw [recovered_mid hB hok.dvd (by omega) hz, Nat.add_mod, hb, Nat.zero_add, Nat.mod_mod]
      have := Nat.mod_le 1 c.B
      omega
  · exact le_trans hmin (recovered_mono hB hok.dvd (by omega))

/-- The data file found after a power failure while at most the page in the write buffer is written. -/
structure DataCut (c : Cfg) (lo K w : Nat) (d : Data) (l : VLog) (es : List Ent) (D : Dev) (pages : List (List Rec)) : Prop where
  eq : pages = (l.log.pages ++ [l.log.buf]).take (Spec.writes D.log).length
  jr : Journal c { d with dev := D } ⟨pages, []⟩
  sorted : (Log.mk pages []).all.Pairwise (fun r s => r.1 < s.1)
  bound : ∀ r ∈ (Log.mk pages []).all, lo ≤ r.1 ∧ r.1 < K
  full : ∀ pg ∈ pages, pg ≠ []
  cap : Capped c.maxRec ⟨pages, []⟩
  fewer : pages.length ≤ d.next + 1
  locs : ∀ m, Spec.recovered c.N c.B pages.length ≤ m → m < pages.length → ∀ p, D.file (m % c.N) = some p →
    LocOk c es p ∧ DataBelow c es (w * c.vcap) p

theorem VTableM.dataCut (hok : c.Ok K) (hid : c.eraseFx = id) (h32 : d.next < 2 ^ 32) (T : VTableM c lo lv K m M d v l g)
    (hmin : d.min ≤ Spec.recovered c.N c.B d.next) (J : Journal c d l.log) {D : Dev}
    (h : (D.file = d.dev.file ∧ D.log = d.dev.log) ∨ Torn c d D ∨
      (D.file = (outDev c d).file ∧ D.log = (outDev c d).log ∧ pageCount d.wbuf ≥ c.maxRec ∧ DataBelow c g.es (v.next * c.vcap) d.wbuf)) :
    ∃ pages, DataCut c lo K v.next d l g.es D pages := by
  have hnext := T.tab.sim.next
  have hwd : (Spec.writes d.dev.log).length = l.log.pages.length := by rw [← wrote_length, J.count]
  have hsub : ∀ {pg : List (List Rec)}, pg = l.log.pages ∨ pg = l.log.pages ++ [l.log.buf] → (Log.mk pg []).all.Sublist l.log.all := by
    rintro pg (rfl | rfl)
    · unfold Log.all
      simp
    · unfold Log.all
      simp
  have hcap := T.tab.cap
  have hlocs : ∀ m, Spec.recovered c.N c.B l.log.pages.length ≤ m → m < l.log.pages.length → ∀ p, d.dev.file (m % c.N) = some p →
      LocOk c g.es p ∧ DataBelow c g.es (v.next * c.vcap) p := by
    intro m h1 h2 p hp
    have := hmin
    rw [hnext] at this
    exact T.locs m (by omega) (by omega) p hp
  have heq : ∀ {L : List Ev}, Spec.writes L = Spec.writes d.dev.log → l.log.pages = (l.log.pages ++ [l.log.buf]).take (Spec.writes L).length := by
    intro L h
    rw [h, hwd, List.take_left]
  rcases h with ⟨f1, f2⟩ | ⟨ha, f1, f2⟩ | ⟨f1, f2, f3, f4⟩
  · refine ⟨l.log.pages, heq (by rw [f2]), ?_, T.tab.sim.sorted.sublist (hsub (Or.inl rfl)),
      fun r hr => T.tab.sim.bound r ((hsub (Or.inl rfl)).subset hr), T.tab.sim.full, ⟨hcap.1, by simp⟩, by omega, ?_⟩
    · exact ⟨by show GoodLog c D.log; rw [f2]; exact J.good, by show D.file = Spec.image c.eraseFx D.log; rw [f1, f2]; exact J.file,
        by show (wrote D.log).map _ = _; rw [f2]; exact J.pages⟩
    · rw [f1]; exact hlocs
  · have hwr : Spec.writes D.log = Spec.writes d.dev.log := by
      rw [f2, writes_append]
      simp [Spec.writes]
    have hs := T.tab.room.sum
    have hx : d.next = d.min + c.N := by omega
    have hb : d.next % c.B = 0 := Nat.mod_eq_zero_of_dvd (by rw [hx]; exact Nat.dvd_add T.tab.room.dvd hok.dvd)
    have hg := GoodLog.erase J.good (by omega) (by rw [hwd, ← hnext]; exact hb)
    rw [hwd, ← hnext] at hg
    have hf : D.file = d.dev.file := by
      rw [f1]
      funext i
      simp only [Spec.applyEv, hid, id]
      split_ifs <;> rfl
    refine ⟨l.log.pages, heq hwr, ?_, T.tab.sim.sorted.sublist (hsub (Or.inl rfl)),
      fun r hr => T.tab.sim.bound r ((hsub (Or.inl rfl)).subset hr), T.tab.sim.full, ⟨hcap.1, by simp⟩, by omega, ?_⟩
    · refine ⟨by show GoodLog c D.log; rw [f2]; exact hg, ?_, ?_⟩
      · show D.file = Spec.image c.eraseFx D.log
        rw [f2, image_snoc, f1]
        congr 1
        exact J.file
      · show (wrote D.log).map _ = _
        unfold wrote
        rw [hwr]
        exact J.pages
    · rw [hf]; exact hlocs
  · have hcount : pageCount d.wbuf = l.log.buf.length := by rw [← T.tab.sim.buf, recs_length]
    have hne : l.log.buf ≠ [] := fun h0 => by
      have := hok.cap
      rw [h0, List.length_nil] at hcount
      omega
    have J' := J.sealed hok T.tab.room hnext T.tab.sim.buf h32 hne hcap.2
    have J2 : Journal c { d with dev := D } ⟨l.log.pages ++ [l.log.buf], []⟩ := by
      refine ⟨?_, ?_, ?_⟩
      · show GoodLog c D.log
        rw [f2]
        exact J'.good
      · show D.file = Spec.image c.eraseFx D.log
        rw [f1, f2]
        exact J'.file
      · show (wrote D.log).map _ = _
        rw [f2]
        exact J'.pages
    have hlen : (Spec.writes D.log).length = l.log.pages.length + 1 := by
      have := J2.count
      rw [wrote_length] at this
      simpa using this
    refine ⟨l.log.pages ++ [l.log.buf], ?_, J2, T.tab.sim.sorted.sublist (hsub (Or.inr rfl)),
      fun r hr => T.tab.sim.bound r ((hsub (Or.inr rfl)).subset hr), ?_, ⟨?_, by simp⟩, ?_, ?_⟩
    · rw [hlen, List.take_of_length_le (by simp)]
    · intro pg hpg
      rcases List.mem_append.mp hpg with h | h
      · exact T.tab.sim.full pg h
      · rw [List.mem_singleton.mp h]; exact hne
    · intro pg hpg
      rcases List.mem_append.mp hpg with h | h
      · exact hcap.1 pg h
      · rw [List.mem_singleton.mp h]; exact hcap.2
    · rw [List.length_append, List.length_singleton]; omega
    · intro m h1 h2 p hp
      rw [List.length_append, List.length_singleton, ← hnext] at h1 h2
      have := T.outMin_le hok hmin
      rw [f1] at hp
      exact locs_sealed hok T.tab.sim.minle T.tab.room (Q := fun p => LocOk c g.es p ∧ DataBelow c g.es (v.next * c.vcap) p)
        (fun p q hs hq => ⟨hs.locOk hq.1, hs.below hq.2⟩) T.locs ⟨T.lbuf, f4⟩ m (by show outMin c d ≤ m; omega) (by show m < d.next + 1; omega) p hp

/-- The variable data file found, if power fails while the table goes from `a` to `b`. -/
theorem ring_cut {a b : Var} (Ra : VarRing c (LRing c.numVar c.B True) a)
    (Rb : VarRing c (fun log n s => LRing c.numVar c.B True log n s ∧ a.dev.log <+: log) b) (j : Nat) :
    (∃ s, LRing c.numVar c.B True (cutFrom c a.dev b.dev j).log (Spec.writes (cutFrom c a.dev b.dev j).log).length s) ∧
      (cutFrom c a.dev b.dev j).file = Spec.image c.eraseFx (cutFrom c a.dev b.dev j).log ∧
      a.dev.log <+: (cutFrom c a.dev b.dev j).log := by
  obtain ⟨-, h1, t, ht⟩ := Rb
  have hbt : between a.dev b.dev = t := by
    unfold between
    rw [← ht, List.drop_left]
  refine ⟨?_, ?_, ?_⟩
  · obtain ⟨n, s, h2⟩ := h1.cut (l := (cutFrom c a.dev b.dev j).log) (by
      show a.dev.log ++ (between a.dev b.dev).take j <+: b.dev.log
      rw [hbt, ← ht]
      exact (List.prefix_append_right_inj _).mpr (List.take_prefix _ _))
    rw [h2.count]
    exact ⟨s, h2⟩
  · show cutBetween c a.dev b.dev j = Spec.image c.eraseFx (a.dev.log ++ (between a.dev b.dev).take j)
    unfold cutBetween
    rw [Ra.1]
    unfold Spec.image
    rw [List.foldl_append]
  · exact List.prefix_append _ _

theorem ring_rule (hv : c.VFile) (l0 : List Ev) : RingRule c (fun log n s => LRing c.numVar c.B True log n s ∧ l0 <+: log) :=
  ⟨hv.B0, fun h ha p hp => ⟨h.1.write ha p hp, h.2.trans (List.prefix_append _ _)⟩, fun h => ⟨h.1.erase, h.2.trans (List.prefix_append _ _)⟩⟩

/-- What is known of the first pages of the variable data file. -/
theorem VTableM.trail (T : VTableM c lo lv K m M d v l g) (hM : M) {V : Dev} (hp : V.log <+: v.dev.log) :
    (Spec.writes V.log).length ≤ v.next ∧ (∀ j, j < (Spec.writes V.log).length → ∃ p, (Spec.writes V.log)[j]? = some (j % c.numVar, p) ∧
      (∀ o, o < c.vcap → p (c.vhdr + o) = g.s.getD (j * c.vcap + o) 0) ∧ vkey c p = g.ks.getD j 0) := by
  have Kk := T.inv.keys hM
  have hw := writes_prefix hp
  have hle := hw.length_le
  rw [Kk.jr.count] at hle
  refine ⟨hle, fun j hj => ?_⟩
  obtain ⟨p, p1, p2, p3⟩ := Kk.jr.page j (by omega)
  refine ⟨p, ?_, p2, p3⟩
  obtain ⟨t, ht⟩ := hw
  rw [← ht, List.getElem?_append_left hj] at p1
  exact p1

/-- The data file as found, and the variable data file cut off somewhere before the state `v'` that is known. -/
theorem DataCut.at {w P : Nat} {es : List Ent} {D V : Dev} {pages : List (List Rec)} {d' : Data} {v' : Var} {l' : VLog} {g' : Gh}
    (H : DataCut c lo K w d l es D pages) (hP : d.next + 1 < P ∨ pages.length < P) (hspl : (Spec.writes D.log).length ≤ c.N ∨ c.maxErr ≤ 1)
    (T' : VTableM c lo lv K m M d' v' l' g') (hM : M) (hes : ∃ t, g'.es = es ++ t) (hp : V.log <+: v'.dev.log)
    (hR : ∃ s, LRing c.numVar c.B True V.log (Spec.writes V.log).length s) (hf : V.file = Spec.image c.eraseFx V.log)
    (hw : w ≤ (Spec.writes V.log).length) (h32 : (Spec.writes V.log).length + 1 < 2 ^ 32)
    (hV : (Spec.writes V.log).length = 1 → ¬ LonePage c V) :
    CutAt c lo K P ⟨g'.vmin, g'.s, g'.ks, es⟩ D V pages (Spec.writes V.log).length := by
  obtain ⟨t, ht⟩ := hes
  have hmem : ∀ e ∈ es, e ∈ g'.es := fun e he => by rw [ht]; exact List.mem_append_left _ he
  obtain ⟨h1, h2⟩ := T'.trail hM hp
  have h3 : pages.length = (Spec.writes D.log).length := by
    have := H.jr.count
    rw [wrote_length] at this
    exact this.symm
  have hfew := H.fewer
  have Kk := T'.inv.keys hM
  refine ⟨⟨_, rfl, H.jr⟩, H.sorted, H.bound, H.full, H.cap, by omega, ?_, ?_, hR, hf, h32, hV, h2, ?_, ⟨?_, ?_⟩, ?_, ?_, ?_⟩
  · rcases hspl with h | h
    · exact Or.inl (recovered_small (by omega))
    · exact Or.inr h
  · intro i i1 i2 p hp
    obtain ⟨q1, q2⟩ := H.locs i i1 i2 p hp
    exact ⟨q1, fun j hj e he hk => le_trans (q2 j hj e he hk) (Nat.mul_le_mul_right _ hw)⟩
  · intro j hj
    obtain ⟨q1, q2⟩ := Kk.pages j (by omega)
    exact ⟨q1, fun e he => q2 e (hmem e he)⟩
  · exact fun e he => T'.ents.ok e (hmem e he)
  · have := T'.ents.sorted
    rw [ht, List.pairwise_append] at this
    exact this.1
  · exact fun e he => T'.inv.bound e (hmem e he)
  · exact le_trans (Nat.mul_le_mul_right _ h1) T'.inv.sim.lo
  · show _ ≤ g'.ks.length
    rw [T'.inv.sim.klen]; exact h1

/-- The files found after a power failure between two operations … -/
theorem VTableM.cutNow (hok : c.Ok K) {P : Nat} (hB : Bounds c lo K P) (hid : c.eraseFx = id) (T : VTableM c lo lv K m M d v l g)
    (hM : M) (hmin : d.min ≤ Spec.recovered c.N c.B d.next) (J : Journal c d l.log) (hP : d.next < P) (hspl : d.next ≤ c.N ∨ c.maxErr ≤ 1) (R : VarRing c (LRing c.numVar c.B True) v)
    (h32 : v.next + 1 < 2 ^ 32) (hV : v.next = 1 → ¬ LonePage c v.dev) : CutAt c lo K P g d.dev v.dev l.log.pages v.next := by
  have h1 := hB.pages
  have hnext := T.tab.sim.next
  have hwd : (Spec.writes d.dev.log).length = l.log.pages.length := by rw [← wrote_length, J.count]
  obtain ⟨pages, H⟩ := T.dataCut hok hid (by omega) hmin J (D := d.dev) (Or.inl ⟨rfl, rfl⟩)
  have he := H.eq
  rw [hwd, List.take_left] at he
  subst he
  have hn := R.2.count
  have := H.at (V := v.dev) (P := P) (Or.inr (by omega)) (by rw [hwd, ← hnext]; exact hspl) T hM ⟨[], by simp⟩ List.prefix_rfl ⟨_, by rw [hn]; exact R.2⟩ R.1
    (by omega) (by omega) (by rw [hn]; exact hV)
  rw [hn] at this
  exact this

/-- … and inside an operation other than a flush.  (`v'`: the state this operation leads to if the power does not fail.) -/
theorem VTableM.cutIn (hok : c.Ok K) (hv : c.VFile) {P : Nat} (hB : Bounds c lo K P) (hid : c.eraseFx = id) (T : VTableM c lo lv K m M d v l g)
    (hM : M) (hmin : d.min ≤ Spec.recovered c.N c.B d.next) (J : Journal c d l.log) (hP : d.next + 1 < P) (R : VarRing c (LRing c.numVar c.B True) v) {x : Idx} {op : VOp} {D V : Dev}
    (hRing : ∀ {l0 d' x' v' o}, VarRing c (fun log n s => LRing c.numVar c.B True log n s ∧ l0 <+: log) v → stepV c d x v op = .ok (d', x', v', o) →
      VarRing c (fun log n s => LRing c.numVar c.B True log n s ∧ l0 <+: log) v')
    (hw : ∀ k a b, op = .put k a b → WrapSafe c d v op) (hop : op ≠ .flush)
    (hf : PowerFail c d x v op D V) {d' : Data} {x' : Idx} {v' : Var} {o : VOut} (e : stepV c d x v op = .ok (d', x', v', o)) {l' : VLog} {g' : Gh}
    (T' : VTableM c lo lv K m M d' v' l' g') (hes : ∃ t, g'.es = g.es ++ t)
    (hspl : (Spec.writes D.log).length ≤ c.N ∨ c.maxErr ≤ 1) (h32 : (Spec.writes V.log).length + 1 < 2 ^ 32)
    (hV : (Spec.writes V.log).length = 1 → ¬ LonePage c V) :
    ∃ pages, CutAt c lo K P ⟨g'.vmin, g'.s, g'.ks, g.es⟩ D V pages (Spec.writes V.log).length ∧
      pages = (l.log.pages ++ [l.log.buf]).take (Spec.writes D.log).length ∧ V.log <+: v'.dev.log := by
  have h1 := hB.pages
  have hpre : ∀ (v0 : Var), VarRing c (LRing c.numVar c.B True) v0 →
      VarRing c (fun log n s => LRing c.numVar c.B True log n s ∧ v0.dev.log <+: log) v0 := fun v0 h => ⟨h.1, h.2, List.prefix_rfl⟩
  have hend := hRing (hpre v R) e
  have fin : ∀ {v0 : Var} {pages : List (List Rec)}, VarRing c (LRing c.numVar c.B True) v0 → DataCut c lo K v0.next d l g.es D pages →
      (∃ s, LRing c.numVar c.B True V.log (Spec.writes V.log).length s) → V.file = Spec.image c.eraseFx V.log → v0.dev.log <+: V.log →
      V.log <+: v'.dev.log →
      ∃ pages, CutAt c lo K P ⟨g'.vmin, g'.s, g'.ks, g.es⟩ D V pages (Spec.writes V.log).length ∧
        pages = (l.log.pages ++ [l.log.buf]).take (Spec.writes D.log).length ∧ V.log <+: v'.dev.log := by
    intro v0 pages R0 H e1 e2 e3 e4
    refine ⟨pages, H.at (Or.inl hP) hspl T' hM hes e4 e1 e2 ?_ h32 hV, H.eq, e4⟩
    rw [← R0.2.count]
    exact (writes_prefix e3).length_le
  have cutle : ∀ {a b : Var} (j : Nat), VarRing c (fun log n s => LRing c.numVar c.B True log n s ∧ a.dev.log <+: log) b →
      (cutFrom c a.dev b.dev j).log <+: b.dev.log := by
    intro a b j Rb
    obtain ⟨-, -, t, ht⟩ := Rb
    show a.dev.log ++ (between a.dev b.dev).take j <+: b.dev.log
    have hbt : between a.dev b.dev = t := by
      unfold between
      rw [← ht, List.drop_left]
    rw [hbt, ← ht]
    exact (List.prefix_append_right_inj _).mpr (List.take_prefix _ _)
  have hrest : ∀ {k a b}, op = .put k a b → VarRing c (LRing c.numVar c.B True) (preVar c d v) →
      VarRing c (fun log n s => LRing c.numVar c.B True log n s ∧ (preVar c d v).dev.log <+: log) v' := by
    intro k a b ho R1
    subst ho
    have e' := e
    simp only [stepV] at e'
    obtain ⟨⟨d2, x2, v2, r2⟩, e1, e2⟩ := Res.bind_eq_ok e'
    simp only [Res.ok.injEq, Prod.mk.injEq] at e2
    rw [← e2.2.2.1]
    exact VarRing.putRest (R := fun log n s => LRing c.numVar c.B True log n s ∧ (preVar c d v).dev.log <+: log) (ring_rule hv _) hv.vdata
      (hpre (preVar c d v) R1) e1
  have R1 : VarRing c (LRing c.numVar c.B True) (preVar c d v) := by
    obtain ⟨z1, z2, -⟩ := (hpre v R).preVar (ring_rule hv _) d
    exact ⟨z1, z2⟩
  cases hf with
  | flushData => exact absurd rfl hop
  | flushVar => exact absurd rfl hop
  | get k =>
    obtain ⟨pages, H⟩ := T.dataCut hok hid (by omega) hmin J (D := d.dev) (Or.inl ⟨rfl, rfl⟩)
    exact fin R H ⟨_, by rw [R.2.count]; exact R.2⟩ R.1 List.prefix_rfl hend.2.2
  | @getVar k j d2 x2 v2 o2 e2 =>
    obtain ⟨pages, H⟩ := T.dataCut hok hid (by omega) hmin J (D := d.dev) (Or.inl ⟨rfl, rfl⟩)
    rw [e] at e2
    simp only [Res.ok.injEq, Prod.mk.injEq] at e2
    obtain ⟨rfl, rfl, rfl, rfl⟩ := e2
    obtain ⟨q1, q2, q3⟩ := ring_cut R hend j
    exact fin R H q1 q2 q3 (cutle j hend)
  | putBefore k a b j =>
    obtain ⟨pages, H⟩ := T.dataCut hok hid (by omega) hmin J (D := d.dev) (Or.inl ⟨rfl, rfl⟩)
    obtain ⟨q1, q2, q3⟩ := ring_cut R ((hpre v R).preVar (ring_rule hv _) d) j
    exact fin R H q1 q2 q3 ((cutle j ((hpre v R).preVar (ring_rule hv _) d)).trans (hrest rfl R1).2.2)
  | @putData k a b j d2 x2 v2 o2 e2 =>
    rw [e] at e2
    simp only [Res.ok.injEq, Prod.mk.injEq] at e2
    obtain ⟨rfl, rfl, rfl, rfl⟩ := e2
    obtain ⟨g1, T1, t1, -, -, t3, -, t5⟩ := T.pre hok hv hB.key (fun hE hc => T.hasData hv hE (hw k a b rfl hc)) (Or.inl hM) true
    obtain ⟨pages, H⟩ := VTableM.dataCut hok hid (by omega) T1 hmin J (D := cutFrom c d.dev d'.dev j) (by
      rcases data_step hok hv e with ⟨h2, -⟩ | ⟨h2, h3, -⟩
      · exact Or.inl (cutFrom_same _ h2 j)
      · rw [h2]
        rcases cutFrom_out (c := c) (d := d) j with h4 | h4 | h4
        · exact Or.inl h4
        · exact Or.inr (Or.inl h4)
        · exact Or.inr (Or.inr ⟨h4.1, h4.2, h3, t5 h3⟩))
    rw [t1] at H
    exact fin (v0 := preVar c d v) R1 H ⟨_, by rw [R1.2.count]; exact R1.2⟩ R1.1 List.prefix_rfl (hrest rfl R1).2.2
  | @putAfter k a b j d2 x2 v2 o2 e2 =>
    rw [e] at e2
    simp only [Res.ok.injEq, Prod.mk.injEq] at e2
    obtain ⟨rfl, rfl, rfl, rfl⟩ := e2
    obtain ⟨g1, T1, t1, -, -, t3, -, t5⟩ := T.pre hok hv hB.key (fun hE hc => T.hasData hv hE (hw k a b rfl hc)) (Or.inl hM) true
    obtain ⟨pages, H⟩ := VTableM.dataCut hok hid (by omega) T1 hmin J (D := d'.dev) (by
      rcases data_step hok hv e with ⟨h2, -⟩ | ⟨h2, h3, -⟩
      · rw [h2]; exact Or.inl ⟨rfl, rfl⟩
      · rw [h2]
        exact Or.inr (Or.inr ⟨rfl, rfl, h3, t5 h3⟩))
    rw [t1] at H
    obtain ⟨q1, q2, q3⟩ := ring_cut R1 (hrest rfl R1) j
    exact fin (v0 := preVar c d v) R1 H q1 q2 q3 (cutle j (hrest rfl R1))

end

end EDB
