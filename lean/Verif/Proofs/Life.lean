import Verif.Proofs.Journal
import Verif.Model.Formatted

/-! Helper lemmas: lives of data files with power failures. -/

namespace EDB

open Spec (Log Op Out)

/-- The journal of a table with log `L` on a device with initial content `init`. -/
structure JournalOn (init : Nat → Option Page) (c : Cfg) (d : Data) (L : Log) : Prop where
  good : GoodLog c d.dev.log
  file : d.dev.file = Spec.imageOn init c.eraseFx d.dev.log
  pages : (wrote d.dev.log).map (recs c) = L.pages

/-- The journal of a table on a device of which nothing could be read at first. -/
abbrev Journal (c : Cfg) (d : Data) (L : Log) : Prop := JournalOn (fun _ => none) c d L

section
variable {init : Nat → Option Page} {c : Cfg} {lo K P m : Nat} {d d' : Data} {L : Log}

theorem JournalOn.count (J : JournalOn init c d L) : (wrote d.dev.log).length = L.pages.length := by
  rw [← J.pages, List.length_map]

theorem JournalOn.congr (J : JournalOn init c d L) (E : d'.dev = d.dev) : JournalOn init c d' L :=
  ⟨by rw [E]; exact J.good, by rw [E]; exact J.file, by rw [E]; exact J.pages⟩

theorem JournalOn.pages_eq {L' : Log} (J : JournalOn init c d L) (E : L'.pages = L.pages) : JournalOn init c d L' :=
  ⟨J.good, J.file, by rw [E]; exact J.pages⟩

theorem JournalOn.sealed (hok : c.Ok K) (J : JournalOn init c d L) (R : Room c d) (hn : d.next = L.pages.length)
    (hb : recs c d.wbuf = L.buf) (h32 : d.next < 2 ^ 32) (h0 : L.buf ≠ []) (hcap : L.buf.length ≤ c.maxRec) :
    JournalOn init c (EDB.sealed c d) ⟨L.pages ++ [L.buf], []⟩ := by
  have hrec : recs c (outPage d) = L.buf := by
    unfold outPage; rw [(sameRecs_id c d.wbuf d.next).recs]; exact hb
  have hcnt : 0 < pageCount (outPage d) ∧ pageCount (outPage d) ≤ c.maxRec := by
    rw [← recs_length c, hrec]
    exact ⟨List.length_pos_iff.mpr h0, hcap⟩
  have hid : pageId (outPage d) = d.next := by
    unfold outPage; rw [pageId_wr, Nat.mod_eq_of_lt h32]
  have hw : (Spec.writes d.dev.log).length = d.next := by rw [← wrote_length, J.count, hn]
  have hlog : (EDB.sealed c d).dev.log = d.dev.log ++
      (if d.avail = 0 then [Ev.erase (d.next % c.N) (d.next % c.N + c.B)] else []) ++ [Ev.write (d.next % c.N) (outPage d)] := rfl
  by_cases ha : d.avail = 0
  · rw [if_pos ha] at hlog
    have hs := R.sum
    have h1 : c.N ≤ (Spec.writes d.dev.log).length := by omega
    have h2 : (Spec.writes d.dev.log).length % c.B = 0 := by
      rw [hw]
      apply Nat.mod_eq_zero_of_dvd
      have : d.next = d.min + c.N := by omega
      rw [this]
      exact Nat.dvd_add R.dvd hok.dvd
    have g1 := GoodLog.erase J.good h1 h2
    rw [hw] at g1
    have hw1 : (Spec.writes (d.dev.log ++ [Ev.erase (d.next % c.N) (d.next % c.N + c.B)])).length = d.next := by
      rw [writes_append, List.length_append, hw]; rfl
    have g2 := GoodLog.write g1 (outPage d) (by rw [hid, hw1]) hcnt
    rw [hw1] at g2
    refine ⟨by rw [hlog]; exact g2, ?_, ?_⟩
    · rw [hlog, imageOn_snoc, imageOn_snoc]
      funext i
      show (outDev c d).file i = _
      unfold outDev
      simp only [Spec.applyEv, ha, true_and, J.file]
    · rw [hlog]
      simp only [wrote, writes_append, Spec.writes, List.map_append, List.map_cons, List.map_nil, List.append_nil, hrec]
      rw [← J.pages]; rfl
  · rw [if_neg ha, List.append_nil] at hlog
    have g2 := GoodLog.write J.good (outPage d) (by rw [hid, hw]) hcnt
    rw [hw] at g2
    refine ⟨by rw [hlog]; exact g2, ?_, ?_⟩
    · rw [hlog, imageOn_snoc]
      funext i
      show (outDev c d).file i = _
      unfold outDev
      simp only [Spec.applyEv, ha, false_and, if_false, J.file]
    · rw [hlog]
      simp only [wrote, writes_append, Spec.writes, List.map_append, List.map_cons, List.map_nil, hrec]
      rw [← J.pages]; rfl

theorem JournalOn.fresh (rb : Page) (sm : Nat → Nat × Nat) : JournalOn init c (Data.freshOn init c rb sm) Log.empty :=
  ⟨GoodLog.nil, rfl, rfl⟩

theorem Journal.fresh (rb : Page) (sm : Nat → Nat × Nat) : Journal c (Data.fresh c rb sm) Log.empty :=
  ⟨GoodLog.nil, rfl, rfl⟩

theorem Journal.file_eq (J : Journal c d L) : d.dev.file = Spec.image c.eraseFx d.dev.log := J.file

/-- One operation of an ascending client. -/
theorem JournalOn.step (hok : c.Ok K) {x x' : Idx} {op : Op} {o : Out} (J : JournalOn init c d L) (T : TableM c lo K m (clr d) L)
    (h32 : d.next < 2 ^ 32) (e : EDB.step c d x op = .ok (d', x', o)) :
    JournalOn init c d' (Spec.logAfter c.maxRec L [(op, some o)]) := by
  have hcount : pageCount d.wbuf = L.buf.length := by rw [← T.sim.buf, recs_length]; rfl
  have hseal : L.buf ≠ [] → ∀ e : Data, SameButCache d e → JournalOn init c (EDB.sealed c e) ⟨L.pages ++ [L.buf], []⟩ := by
    intro hne e E
    have T' := T.clr_congr E
    exact (J.congr E.dev).sealed hok ⟨T'.room.dvd, T'.room.sum⟩ T'.sim.next T'.sim.buf (by rw [E.next]; exact h32) hne T.cap.2
  cases op with
  | put k v =>
    have E := orderCheck_same (c := c) d k
    simp only [EDB.step] at e
    rw [putD_eq hok] at e
    split_ifs at e
    · simp only [Res.ok_bind, Res.ok.injEq, Prod.mk.injEq] at e
      obtain ⟨rfl, _, rfl⟩ := e
      simp only [Spec.logAfter]
      unfold accepted Log.put
      simp only
      rw [E.wbuf]
      by_cases hf : pageCount d.wbuf ≥ c.maxRec
      · rw [if_pos hf, if_pos (show L.buf.length ≥ c.maxRec by omega)]
        have h0 : L.buf ≠ [] := by
          intro h
          rw [h, List.length_nil] at hcount
          have := hok.cap
          omega
        have h := hseal h0 _ E
        exact ⟨h.good, h.file, h.pages⟩
      · rw [if_neg hf, if_neg (show ¬ L.buf.length ≥ c.maxRec by omega)]
        have h := J.congr E.dev
        exact ⟨h.good, h.file, h.pages⟩
    · simp only [Res.ok_bind, Res.ok.injEq, Prod.mk.injEq] at e
      obtain ⟨rfl, _, rfl⟩ := e
      simp only [Spec.logAfter]
      exact J.congr E.dev
  | flush =>
    simp only [EDB.step] at e
    rw [flushD_eq hok.io hok.spline] at e
    split_ifs at e with hf
    · simp only [Res.ok_bind, Res.ok.injEq, Prod.mk.injEq] at e
      obtain ⟨rfl, _, rfl⟩ := e
      simp only [Spec.logAfter]
      unfold Log.flush
      rw [if_pos (List.length_eq_zero_iff.mp (show L.buf.length = 0 by omega))]
      exact J
    · simp only [Res.ok_bind, Res.ok.injEq, Prod.mk.injEq] at e
      obtain ⟨rfl, _, rfl⟩ := e
      have h0 : L.buf ≠ [] := by
        intro h
        rw [h, List.length_nil] at hcount
        omega
      simp only [Spec.logAfter]
      unfold Log.flush
      rw [if_neg h0]
      exact hseal h0 d (SameButCache.refl d)
  | get k =>
    simp only [EDB.step] at e
    obtain ⟨⟨d1, r, out⟩, h1, e⟩ := Res.bind_eq_ok e
    cases e
    exact J.congr (get_same h1).dev
  | scan q =>
    simp only [EDB.step] at e
    obtain ⟨⟨d1, x1, rs⟩, h1, e⟩ := Res.bind_eq_ok e
    cases e
    exact J.congr (scanAll_same h1).dev

/-! ### The recovered table -/

theorem addPages_inv {h : Nat → Nat} : ∀ (qs : List Page) (s : Spline) (pg : Nat), Spline.Inv s h m pg →
    (m = 0 ∨ s.maxErr ≤ 1) →
    (∀ i (hi : i < qs.length), pageMinKey c qs[i] = h (pg + i)) →
    (∀ i, i < qs.length → Spline.Feed h s.maxErr m (pg + i + 1)) →
    Spline.Inv (addPages c s qs pg) h m (pg + qs.length) ∧ (addPages c s qs pg).maxErr = s.maxErr := by
  intro qs
  induction qs with
  | nil => intro s pg I _ _ _; exact ⟨I, rfl⟩
  | cons q t ih =>
    intro s pg I hs hk hF
    have h1 := I.add hs (hF 0 (by simp))
    have h2 := hk 0 (by simp)
    simp only [List.getElem_cons_zero, Nat.add_zero] at h2
    rw [← h2] at h1
    have he : (s.add (pageMinKey c q) pg).maxErr = s.maxErr := Spline.add_maxErr _ _ _
    obtain ⟨g1, g2⟩ := ih (s.add (pageMinKey c q) pg) (pg + 1) h1 (by rw [he]; exact hs) (by
        intro i hi
        have := hk (i + 1) (by simp; omega)
        simp only [List.getElem_cons_succ] at this
        rw [this]
        congr 1
        omega) (by
        intro i hi
        have := hF (i + 1) (by simp; omega)
        rw [he, show pg + 1 + i + 1 = pg + (i + 1) + 1 by omega]
        exact this)
    refine ⟨?_, g2.trans he⟩
    rw [List.length_cons, show pg + (t.length + 1) = pg + 1 + t.length by omega]
    exact g1

theorem Log_cut_all {L : Log} (n : Nat) : (Log.all ⟨L.pages.take n, []⟩).Sublist L.all := by
  unfold Log.all
  simp only [List.append_nil]
  refine List.Sublist.trans ?_ (List.sublist_append_left _ _)
  conv_rhs => rw [← List.take_append_drop n L.pages, List.flatten_append]
  exact List.sublist_append_left _ _

/-- Reopening after a power failure at any storage operation yields a table that represents the pages then stored. -/
theorem reopenOn_ok (hv : Vacant c init) (hok : c.Ok K) (hB : Bounds c lo K P) (hP32 : P ≤ 2 ^ 32) (h127 : c.maxRec ≤ 127) (hN32 : c.N < 2 ^ 32)
    (hE : Eraser c P) (J : JournalOn init c d L) (hsort : L.all.Pairwise (fun r s => r.1 < s.1))
    (hbd : ∀ r ∈ L.all, lo ≤ r.1 ∧ r.1 < K) (hfull : ∀ pg ∈ L.pages, pg ≠ []) (hcap : Capped c.maxRec L)
    (hP : L.pages.length < P) (k : Nat) (hz : SafeCut c d.dev k) (rb : Page) (sm : Nat → Nat × Nat) :
    ∃ d' n, reopenOn init c d.dev k rb sm = (d', 0) ∧ n = (Spec.writes (d.dev.log.take k)).length ∧ n ≤ L.pages.length ∧
      JournalOn init c d' (cutLog L d.dev k) ∧ d'.dev = cutDevOn init c d.dev k ∧ d'.next = n ∧ d'.min = Spec.recovered c.N c.B n ∧
      d'.wbuf = initPage c ∧ Fresh d' ∧
      ((Spec.recovered c.N c.B n = 0 ∨ c.maxErr ≤ 1) → TableM c lo K (Spec.recovered c.N c.B n) (clr d') (cutLog L d.dev k) ∧
        ((∀ ph, init ph = none) ∨ 0 < n → TableM c lo K (Spec.recovered c.N c.B n) d' (cutLog L d.dev k))) := by
  have hG := J.good.take k
  have hps : (wrote (d.dev.log.take k)).map (recs c) = L.pages.take (Spec.writes (d.dev.log.take k)).length := by
    have : wrote (d.dev.log.take k) = (wrote d.dev.log).take (Spec.writes (d.dev.log.take k)).length := by
      have e : d.dev.log = d.dev.log.take k ++ d.dev.log.drop k := (List.take_append_drop _ _).symm
      conv_rhs => rw [e]
      unfold wrote
      rw [writes_append, List.map_append, List.take_left']
      rw [List.take_append_drop]
      simp
    rw [this, List.map_take, J.pages]
  have hlen : (wrote (d.dev.log.take k)).length = (Spec.writes (d.dev.log.take k)).length := wrote_length _
  have hle : (Spec.writes (d.dev.log.take k)).length ≤ L.pages.length := by
    have := congrArg List.length hps
    rw [List.length_map, hlen, List.length_take] at this
    omega
  obtain ⟨er, I, hz'⟩ : ∃ er, Image c P init (wrote (d.dev.log.take k)) er (Spec.imageOn init c.eraseFx (d.dev.log.take k)) ∧
      (er = true → (wrote (d.dev.log.take k)).length % c.N = 0 → False) := by
    rcases hz with hz | hz
    · refine ⟨_, hG.imageOn hv.out hok.B0 hok.dvd hok.N0 hE, ?_⟩
      intro h1 h2
      obtain ⟨hi, h3⟩ := hG.torn h1 h2
      exact hz hi h3
    · exact ⟨false, hG.imageOn_id hv.out hok.B0 hok.dvd hok.N0 hz, by simp⟩
  generalize hn : (Spec.writes (d.dev.log.take k)).length = n at *
  have hcut : cutLog L d.dev k = ⟨L.pages.take n, []⟩ := by unfold cutLog; rw [hn]
  rw [hcut]
  -- what holds of any state with these counters
  have hT : ∀ d' : Data, Fresh d' → (∀ ph, d'.buffered = some ph → ph < c.N ∧ ph < n) → d'.dev = cutDevOn init c d.dev k → d'.wbuf = initPage c → d'.next = n →
      d'.min = Spec.recovered c.N c.B n → (0 < n → d'.min < n) → d'.next + d'.avail = Spec.recovered c.N c.B n + c.N →
      d'.spl = addPages c (Spline.init c.splSize c.maxErr sm) ((wrote (d.dev.log.take k)).drop (Spec.recovered c.N c.B n)) (Spec.recovered c.N c.B n) →
      (Spec.recovered c.N c.B n = 0 ∨ c.maxErr ≤ 1) → TableM c lo K (Spec.recovered c.N c.B n) d' ⟨L.pages.take n, []⟩ := by
    intro d' F hbuf hdev hwb hnext hmin hlt hav hspl hs
    have hlt' : (L.pages.take n).length = n := by rw [List.length_take]; omega
    have hps' : ∀ l (h : l < n), recs c ((wrote (d.dev.log.take k))[l]'(by omega)) = (L.pages.take n)[l]'(by omega) := by
      intro l h
      have := List.getElem_map (recs c) (l := wrote (d.dev.log.take k)) (i := l) (h := by simp; omega)
      rw [← this]
      simp only [hps]
    have hml : Spec.recovered c.N c.B n ≤ n := by
      rcases Nat.eq_zero_or_pos n with h | h
      · rw [h, recovered_small (Nat.zero_le _)]
      · have := hlt h; omega
    have hsub := Log_cut_all (L := L) n
    have hfile : d'.dev.file = Spec.imageOn init c.eraseFx (d.dev.log.take k) := by rw [hdev]; rfl
    have hlive : ∀ l (h : l < n), Spec.recovered c.N c.B n ≤ l →
        Spec.imageOn init c.eraseFx (d.dev.log.take k) (l % c.N) = some ((wrote (d.dev.log.take k))[l]'(by omega)) := by
      intro l h hl
      apply I.live l (by omega)
      rw [hlen]
      unfold Spec.recovered at hl
      split_ifs at hl ⊢ with h1 h2
      · exact hl
      · obtain ⟨m1, m2⟩ := I.mid h1
        rw [hlen] at m1 m2
        exfalso
        -- er but at the end of the file or not wrapped
        rcases Nat.lt_or_ge c.N n with h3 | h3
        · exact hz' h1 (by rw [hlen]; by_contra h4; exact h2 ⟨h3, m2, h4⟩)
        · exact hz' h1 (by rw [hlen, show n = c.N by omega, Nat.mod_self])
      · omega
      · exact hl
    have hfk : ∀ l (h : l < n), pageMinKey c ((wrote (d.dev.log.take k))[l]'(by omega)) = firstKey ⟨L.pages.take n, []⟩ l := by
      intro l h
      have hne : (L.pages.take n)[l]'(by omega) ≠ [] := hfull _ (List.mem_of_mem_take (List.getElem_mem _))
      rw [firstKey_eq (L := ⟨L.pages.take n, []⟩) (by simp only; omega) hne]
      have := hps' l h
      generalize (L.pages.take n)[l]'(by omega) = pg at this hne ⊢
      cases pg with
      | nil => exact absurd rfl hne
      | cons r t => exact pageMinKey_eq this
    have hsort' := hsort.sublist hsub
    have hfull' : ∀ pg ∈ L.pages.take n, pg ≠ [] := fun pg h => hfull pg (List.mem_of_mem_take h)
    have hkey : ∀ p (hp : p < n), ∃ hh : (L.pages.take n)[p]'(by omega) ≠ [],
        firstKey ⟨L.pages.take n, []⟩ p = (((L.pages.take n)[p]'(by omega)).head hh).1 := by
      intro p hp
      exact ⟨hfull' _ (List.getElem_mem _), firstKey_eq (L := ⟨L.pages.take n, []⟩) (by simp only; omega) _⟩
    have hmono : ∀ p q, p < q → q < n → firstKey ⟨L.pages.take n, []⟩ p < firstKey ⟨L.pages.take n, []⟩ q := by
      intro p q h1 h2
      obtain ⟨a1, a2⟩ := hkey p (by omega)
      obtain ⟨b1, b2⟩ := hkey q h2
      rw [a2, b2]
      exact Log_pages_sorted hsort' h1 (by simp only; omega) _ (List.head_mem a1) _ (List.head_mem b1)
    have hbound : ∀ p, p < n → lo ≤ firstKey ⟨L.pages.take n, []⟩ p ∧ firstKey ⟨L.pages.take n, []⟩ p < K := by
      intro p h1
      obtain ⟨a1, a2⟩ := hkey p h1
      rw [a2]
      exact hbd _ (hsub.subset (mem_all_page (L := ⟨L.pages.take n, []⟩) (by simp only; omega) (List.head_mem a1)))
    have hspl' := addPages_inv (c := c) (m := Spec.recovered c.N c.B n) (h := firstKey ⟨L.pages.take n, []⟩)
      ((wrote (d.dev.log.take k)).drop (Spec.recovered c.N c.B n)) (Spline.init c.splSize c.maxErr sm)
      (Spec.recovered c.N c.B n) (Spline.Inv.init _ _ _ _ _ hok.spl) hs (by
        intro i hi
        rw [List.length_drop, hlen] at hi
        rw [List.getElem_drop]
        exact hfk _ (by omega)) (by
        intro i hi
        rw [List.length_drop, hlen] at hi
        refine ⟨fun p q _ h2 h3 => hmono p q h2 (by omega), ?_, by omega⟩
        have h1 := hbound (Spec.recovered c.N c.B n + i + 1 - 1) (by omega)
        have h2 := hbound (Spec.recovered c.N c.B n) (by omega)
        refine lt_of_le_of_lt ?_ hB.prod
        exact Nat.mul_le_mul (by omega) (show _ ≤ P + c.maxErr from by
          show Spec.recovered c.N c.B n + i + 1 + c.maxErr ≤ P + c.maxErr
          omega))
    rw [List.length_drop, hlen, show Spec.recovered c.N c.B n + (n - Spec.recovered c.N c.B n) = n by omega, ← hspl] at hspl'
    refine ⟨⟨by rw [hnext]; exact hlt'.symm, le_of_eq hmin.symm, by omega, by intro h; rw [hnext]; exact hlt (by omega), by omega, ?_, ?_, hfull', hsort',
      fun r hr => hbd r (hsub.subset hr), by rw [hnext]; exact hspl'.1, hspl'.2, ?_, ?_⟩, ⟨?_, by rw [hmin]; exact hav⟩, ?_, Or.inl hmin⟩
    · intro l hl h
      simp only [List.length_take] at h
      refine ⟨_, by rw [hfile]; exact hlive l (by omega) (by omega), hps' l (by omega), ?_⟩
      rw [I.ids, Nat.mod_eq_of_lt (by omega)]
    · rw [hwb]; exact recs_init c
    · intro ph hph
      rw [hnext]
      exact hbuf ph hph
    · intro ph hph l _ _ _
      exact F ph hph
    · rw [hmin]; exact recovered_dvd
    · exact ⟨fun pg h => hcap.1 pg (List.mem_of_mem_take h), by simp⟩
  have F0 : Fresh (Data.opening c (cutDevOn init c d.dev k) rb sm) := by
    intro ph h
    simp [Data.opening, Data.fresh] at h
  have hJ : ∀ d' : Data, d'.dev = cutDevOn init c d.dev k → JournalOn init c d' ⟨L.pages.take n, []⟩ := by
    intro d' h
    refine ⟨?_, ?_, ?_⟩
    · rw [h]; exact hG
    · rw [h]; rfl
    · rw [h]; exact hps
  unfold reopenOn recover
  rw [hok.plain, if_neg (by simp)]
  by_cases hne : wrote (d.dev.log.take k) = []
  · have hn0 : n = 0 := by rw [← hlen, hne]; rfl
    have hz0 : Spec.recovered c.N c.B n = 0 := by rw [hn0]; exact recovered_small (Nat.zero_le _)
    have hinit : ∀ ph, Spec.imageOn init c.eraseFx (d.dev.log.take k) ph = init ph := by
      intro ph
      exact I.empty (by rw [hlen, hn0]; exact hok.N0) ph (by rw [hlen, hn0]; exact Nat.zero_le _)
    obtain ⟨d', e1, e2, e3, e4⟩ : ∃ d', recoverPlain c (Data.opening c (cutDevOn init c d.dev k) rb sm) = (d', 0) ∧
        SameButCache (Data.opening c (cutDevOn init c d.dev k) rb sm) d' ∧ Fresh d' ∧
        ((∀ ph, init ph = none) → d'.buffered = none) := by
      generalize hd0 : Data.opening c (cutDevOn init c d.dev k) rb sm = d0 at *
      have hf0 : ∀ ph, d0.dev.file ph = init ph := by
        intro ph
        rw [← hd0]
        exact hinit ph
      have hb0 : d0.buffered = none := by rw [← hd0]; rfl
      unfold recoverPlain
      rcases hv.pages with h | h
      · rw [readPage_none F0 (by rw [hf0, h])]
        exact ⟨d0, rfl, SameButCache.refl d0, F0, fun _ => hb0⟩
      · have hN2 := hok.two
        have hB0 := hok.B0
        obtain ⟨q0, i1, i2, _⟩ := h 0 (by omega)
        obtain ⟨r1, r2, r3, r4⟩ := readPage_some F0 (show d0.dev.file 0 = some q0 by rw [hf0]; exact i1)
        have E1 := readPage_same d0 0
        generalize readPage d0 0 = s1 at *
        obtain ⟨q1, j1, j2, _⟩ := h c.B (by omega)
        obtain ⟨t1, t2, t3, t4⟩ := readPage_some r4 (show s1.1.dev.file c.B = some q1 by rw [E1.dev, hf0]; exact j1)
        have E2 := readPage_same s1.1 c.B
        have hp : probe c 2 s1.1 0 s1.2 =
            ⟨(readPage (readPage s1.1 c.B).1 (c.B + c.B)).1, c.B + c.B, none, (readPage (readPage s1.1 c.B).1 (c.B + c.B)).2⟩ := by
          simp only [probe, r1, r2, i2, if_true, Bool.false_eq_true, if_false, Nat.zero_add, t1, t2, j2]
        simp only [hp]
        refine ⟨_, rfl, E1.trans (E2.trans (readPage_same _ _)), readPage_fresh t4, ?_⟩
        intro h'
        rw [h'] at i1
        cases i1
    refine ⟨d', n, e1, rfl, hle, hJ _ e2.dev, e2.dev, by rw [e2.next, hn0]; rfl, by rw [e2.min, hz0]; rfl, e2.wbuf, e3, ?_⟩
    intro hs
    have hclr : ∀ d1 : Data, SameButCache d' d1 → Fresh d1 → (∀ ph, d1.buffered = some ph → ph < c.N ∧ ph < n) →
        TableM c lo K (Spec.recovered c.N c.B n) d1 ⟨L.pages.take n, []⟩ := by
      intro d1 E F1 hb
      have E' := e2.trans E
      refine hT _ F1 hb E'.dev E'.wbuf (by rw [E'.next, hn0]; rfl) (by rw [E'.min, hz0]; rfl) (by omega) ?_ ?_ hs
      · rw [E'.next, E'.avail, hz0]; simp [Data.opening, Data.fresh, hok.plain]
      · rw [E'.spl, hne, List.drop_nil]; rfl
    refine ⟨hclr (clr d') ⟨rfl, rfl, rfl, rfl, rfl, rfl, rfl, rfl⟩ (fun ph h => by simp [clr] at h) (fun ph h => by simp [clr] at h), ?_⟩
    rintro (h | h)
    · exact hclr d' (SameButCache.refl _) e3 (fun ph h1 => by rw [e4 h] at h1; cases h1)
    · omega
  · obtain ⟨d', g1, g2, g3, g4, g5, g6, g7, g8, g9, gb⟩ := recoverPlain_ok (c := c) hok.B0 hok.dvd hok.two hok.spline h127 hN32
      (by omega) hP32 hv I (fun h1 h2 => absurd (hz' h1 h2) (by simp)) F0 rfl hne
    rw [hlen] at g5 g6 g7 g8 gb
    refine ⟨d', n, g1, rfl, hle, hJ _ g3, g3, g5, g6, g4, g2, ?_⟩
    intro hs
    have hn0 : 0 < n := by rw [← hlen]; exact List.length_pos_iff.mpr hne
    have hT' := hT d' g2 (by
      intro ph hph
      rw [gb] at hph
      cases hph
      have h1 := Nat.mod_lt (n - 1) hok.N0
      have h2 := Nat.mod_le (n - 1) c.N
      omega) g3 g4 g5 g6 (by omega) g7 g8 hs
    exact ⟨hT'.clr, fun _ => hT'⟩

/-- Reopening after a power failure, on a device of which nothing could be read at first. -/
theorem reopen_ok (hok : c.Ok K) (hB : Bounds c lo K P) (hP32 : P ≤ 2 ^ 32) (h127 : c.maxRec ≤ 127) (hN32 : c.N < 2 ^ 32)
    (hE : Eraser c P) (J : Journal c d L) (hsort : L.all.Pairwise (fun r s => r.1 < s.1))
    (hbd : ∀ r ∈ L.all, lo ≤ r.1 ∧ r.1 < K) (hfull : ∀ pg ∈ L.pages, pg ≠ []) (hcap : Capped c.maxRec L)
    (hP : L.pages.length < P) (k : Nat) (hz : SafeCut c d.dev k) (rb : Page) (sm : Nat → Nat × Nat) :
    ∃ d' n, reopen c d.dev k rb sm = (d', 0) ∧ n = (Spec.writes (d.dev.log.take k)).length ∧ n ≤ L.pages.length ∧
      Journal c d' (cutLog L d.dev k) ∧ d'.dev = cutDev c d.dev k ∧ d'.next = n ∧ d'.min = Spec.recovered c.N c.B n ∧
      d'.wbuf = initPage c ∧ Fresh d' ∧
      ((Spec.recovered c.N c.B n = 0 ∨ c.maxErr ≤ 1) → TableM c lo K (Spec.recovered c.N c.B n) d' (cutLog L d.dev k)) := by
  obtain ⟨d', n, g1, g2, g3, g4, g5, g6, g7, g8, g9, g10⟩ := reopenOn_ok (Vacant.none c) hok hB hP32 h127 hN32 hE J hsort hbd hfull hcap
    hP k hz rb sm
  exact ⟨d', n, g1, g2, g3, g4, g5, g6, g7, g8, g9, fun hs => (g10 hs).2 (Or.inl fun _ => rfl)⟩

theorem freshOn_table (hok : c.Ok K) (rb : Page) (sm : Nat → Nat × Nat) : TableM c lo K 0 (Data.freshOn init c rb sm) Log.empty := by
  refine ⟨⟨rfl, le_refl _, le_refl _, fun h => absurd h (Nat.lt_irrefl 0), by simp [Data.freshOn, Data.fresh], ?_, recs_init c, ?_, ?_, ?_, ?_, rfl, ?_, ?_⟩,
    ⟨dvd_zero _, ?_⟩, ⟨by simp [Log.empty], by simp [Log.empty]⟩, Or.inl rfl⟩
  · intro l _ h; simp [Log.empty] at h
  · intro pg h; simp [Log.empty] at h
  · simp [Log.all, Log.empty]
  · intro r h; simp [Log.all, Log.empty] at h
  · exact Spline.Inv.init _ _ _ _ _ hok.spl
  · intro ph h; simp [Data.freshOn, Data.fresh] at h
  · intro ph h; simp [Data.freshOn, Data.fresh] at h
  · simp [Data.freshOn, Data.fresh, hok.plain]

/-- Everything that ever happens to a data file. -/
theorem LifeOn.ok (hv : Vacant c init) (hok : c.Ok K) (hB : Bounds c lo K P) (hP32 : P ≤ 2 ^ 32) (h127 : c.maxRec ≤ 127) (hN32 : c.N < 2 ^ 32)
    (hE : Eraser c P) (hs : c.maxErr ≤ 1 ∨ P ≤ c.N) (hP0 : 0 < P) (h : LifeOn init c lo K P d L) :
    JournalOn init c d L ∧ d.next < P ∧ ∃ m, (m = 0 ∨ c.maxErr ≤ 1) ∧ c.B ∣ m ∧ TableM c lo K m (clr d) L := by
  induction h with
  | new rb sm => exact ⟨JournalOn.fresh rb sm, hP0, 0, Or.inl rfl, dvd_zero _, (freshOn_table hok rb sm).clr⟩
  | @op d d' L x x' op o h e hput hP ih =>
    obtain ⟨J, _, m, hm, hd, T⟩ := ih
    have hJ := J.step hok T (by omega) e
    have key : TableM c lo K m (clr d') (Spec.logAfter c.maxRec L [(op, some o)]) := by
      rcases T.core_step hok hm hB (by omega) hput e with ⟨k, v, rfl, rfl, T'⟩ | ⟨k, v, rfl, rfl, T'⟩ | ⟨rfl, rfl, T'⟩ | ⟨hr, T'⟩
      · exact T'
      · simpa [Spec.logAfter] using T'
      · exact T'
      · cases op with
        | put k v => simp [Op.isRead] at hr
        | flush => simp [Op.isRead] at hr
        | get k => exact T'
        | scan q => exact T'
    refine ⟨hJ, ?_, m, hm, hd, key⟩
    have h1 : d'.next = _ := key.sim.next
    have h2 : d.next = _ := T.sim.next
    have h3 : (Spec.logAfter c.maxRec L [(op, some o)]).pages.length ≤ L.pages.length + 1 := by
      have := Log_put_pages (L := L) c.maxRec
      have := Log_flush_pages (L := L)
      unfold Spec.logAfter
      split <;> simp_all [Spec.logAfter]
    omega
  | @cut d d' L h k rb sm hz e ih =>
    obtain ⟨J, hlt, m, hm, hd, T⟩ := ih
    have hn : d.next = _ := T.sim.next
    obtain ⟨d1, n, g1, g2, g3, g4, g5, g6, g7, g8, g9, g10⟩ := reopenOn_ok hv hok hB hP32 h127 hN32 hE J T.sim.sorted T.sim.bound
      T.sim.full T.cap (by omega) k hz rb sm
    rw [e] at g1
    cases g1
    have hs' : Spec.recovered c.N c.B n = 0 ∨ c.maxErr ≤ 1 := by
      rcases hs with h | h
      · exact Or.inr h
      · exact Or.inl (recovered_small (by omega))
    exact ⟨g4, by omega, _, hs', recovered_dvd, (g10 hs').1⟩

theorem Life.on (h : Life c lo K P d L) : LifeOn (fun _ => none) c lo K P d L := by
  induction h with
  | new rb sm => exact .new rb sm
  | op h e hput hP ih => exact .op ih e hput hP
  | cut h k rb sm hz e ih => exact .cut ih k rb sm hz e

theorem Life.ok (hok : c.Ok K) (hB : Bounds c lo K P) (hP32 : P ≤ 2 ^ 32) (h127 : c.maxRec ≤ 127) (hN32 : c.N < 2 ^ 32)
    (hE : Eraser c P) (hs : c.maxErr ≤ 1 ∨ P ≤ c.N) (hP0 : 0 < P) (h : Life c lo K P d L) :
    Journal c d L ∧ d.next < P ∧ ∃ m, (m = 0 ∨ c.maxErr ≤ 1) ∧ c.B ∣ m ∧ TableM c lo K m (clr d) L :=
  h.on.ok (Vacant.none c) hok hB hP32 h127 hN32 hE hs hP0

end

end EDB
