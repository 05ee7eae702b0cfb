import Verif.Proofs.Life
import Verif.Props.Reads
import Verif.Props.Storage

/-!
# C17, C18, C19, C41: reopening a data file

A data file may live through any number of sessions, each cut off at an arbitrary storage operation (`Life`).
-/

namespace EDB

open Spec (Log Op Out)

/-- The assumptions of the recovery theorems: a plain spline-mode table (`Cfg.Ok`), keys and page counts within the
exact range of the spline arithmetic, at most 127 records per page (see C41), an erase that leaves pages readable and
does not fake page numbers (`Eraser`; see `C18_false_unreadable`), and for files that wrap a spline error bound of at
most 1 (for larger bounds a spline that does not start at page 0 may answer wrongly, see C12). -/
structure Durable (c : Cfg) (lo K P : Nat) : Prop where
  ok : c.Ok K
  bounds : Bounds c lo K P
  pos : 0 < P
  recs127 : c.maxRec ≤ 127
  file32 : c.N < 2 ^ 32
  eraser : Eraser c P
  spline : c.maxErr ≤ 1 ∨ P ≤ c.N

/-- The rule for what is still known after reopening with `n` pages written: whole blocks, nothing unless the file
wrapped, at most one block more than what had to be dropped anyway, and always the newest `N - B` pages. -/
theorem recovered_rule (N B n : Nat) (hB : 0 < B) (hd : B ∣ N) (hBN : B < N) :
    B ∣ Spec.recovered N B n ∧ (n ≤ N → Spec.recovered N B n = 0) ∧
    Spec.dropped N B n ≤ Spec.recovered N B n ∧ Spec.recovered N B n ≤ Spec.dropped N B n + B ∧
    (n % B ≠ 0 → Spec.recovered N B n = Spec.dropped N B n) ∧
    (N - B ≤ n → Spec.recovered N B n ≤ n - (N - B)) ∧ (0 < n → Spec.recovered N B n < n) := by
  refine ⟨recovered_dvd, recovered_small, ?_, ?_, ?_, ?_, ?_⟩
  · unfold Spec.recovered; omega
  · unfold Spec.recovered; split_ifs <;> omega
  · intro h; unfold Spec.recovered; rw [if_neg (fun h' => h h'.2.1), Nat.add_zero]
  · intro h
    rcases Nat.lt_or_ge N n with h1 | h1
    · by_cases h2 : n % N = 0
      · rw [recovered_end hB hd (by omega) h2]; omega
      · rw [recovered_mid hB hd h1 h2]; omega
    · rw [recovered_small h1]; omega
  · intro h
    rcases Nat.lt_or_ge N n with h1 | h1
    · by_cases h2 : n % N = 0
      · rw [recovered_end hB hd (by omega) h2]; omega
      · rw [recovered_mid hB hd h1 h2]; omega
    · rw [recovered_small h1]; omega

section
variable {c : Cfg} {lo K P : Nat}

/-- C18 (`_partial`: `Durable` configurations, and not a power failure exactly between the erase of the first block of
the file and the following page write unless that erase leaves the content alone, `SafeCut`; there the claim is false,
`C18_false_first_block`).

Whatever happened to the file before (any number of sessions of ascending inserts, flushes and reads, each ended by a power
failure at any storage operation), let power fail after the first `k` storage operations.  Then reopening succeeds, changes nothing on
the device, and the state describes exactly the pages written by then (`cutLog`), from page `Spec.recovered` on: these pages are on the device in their places,
carry their numbers, and hold exactly their records; no record is left over in the write buffer. -/
theorem C18_crash_partial (D : Durable c lo K P) {d : Data} {L : Log} (h : Life c lo K P d L) (k : Nat)
    (hk : SafeCut c d.dev k) (rb : Page) (sm : Nat → Nat × Nat) :
    ∃ d' n, reopen c d.dev k rb sm = (d', 0) ∧
      n = (Spec.writes (d.dev.log.take k)).length ∧ n ≤ L.pages.length ∧
      d'.dev.file = Spec.image c.eraseFx (d.dev.log.take k) ∧
      d'.next = n ∧ d'.min = Spec.recovered c.N c.B n ∧
      (∀ l, d'.min ≤ l → ∀ hl : l < (L.pages.take n).length, ∃ p, d'.dev.file (l % c.N) = some p ∧ Spec.pageNo p = l ∧
        Spec.pageRecs c.hdr c.recSize c.keySize c.dataSize p = (L.pages.take n)[l]) ∧
      Spec.storedRecs (Spec.pageRecs c.hdr c.recSize c.keySize c.dataSize) d'.dev.file c.N d'.min (n - d'.min) =
        (cutLog L d.dev k).live d'.min ∧
      Spec.pageRecs c.hdr c.recSize c.keySize c.dataSize d'.wbuf = [] := by
  have h32 : P ≤ 2 ^ 32 := by have := D.bounds.pages; omega
  obtain ⟨J, hlt, m, hm, hd, T⟩ := h.ok D.ok D.bounds h32 D.recs127 D.file32 D.eraser D.spline D.pos
  have hn : d.next = _ := T.sim.next
  obtain ⟨d', n, g1, g2, g3, g4, g5, g6, g7, g8, g9, g10⟩ := reopen_ok D.ok D.bounds h32 D.recs127 D.file32 D.eraser J
    T.sim.sorted T.sim.bound T.sim.full T.cap (by omega) k hk rb sm
  have hs : Spec.recovered c.N c.B n = 0 ∨ c.maxErr ≤ 1 := by
    rcases D.spline with h | h
    · exact Or.inr h
    · exact Or.inl (recovered_small (by omega))
  have T' := g10 hs
  have hcut : cutLog L d.dev k = ⟨L.pages.take n, []⟩ := by unfold cutLog; rw [← g2]
  rw [hcut] at T' ⊢
  have hstored : ∀ l, d'.min ≤ l → ∀ hl : l < (L.pages.take n).length, ∃ p, d'.dev.file (l % c.N) = some p ∧
      recs c p = (L.pages.take n)[l] ∧ pageId p = l % 2 ^ 32 := fun l h1 h2 => T'.sim.stored l h1 h2
  have hlen : (L.pages.take n).length = n := by rw [List.length_take]; omega
  refine ⟨d', n, g1, g2, g3, by rw [g5]; rfl, g6, g7, ?_, ?_, ?_⟩
  · intro l h1 h2
    obtain ⟨p, p1, p2, p3⟩ := hstored l h1 h2
    refine ⟨p, p1, ?_, by rw [← recs_spec]; exact p2⟩
    rw [← pageId_spec, p3, Nat.mod_eq_of_lt (by omega)]
  · have := storedRecs_eq (c := c) (file := d'.dev.file) (pages := L.pages.take n) d'.min
      (by have := T'.sim.minle; omega) (fun l h1 h2 => by
        obtain ⟨p, p1, p2, _⟩ := hstored l h1 h2
        exact ⟨p, p1, p2⟩)
    rw [hlen] at this
    rw [show (Spec.pageRecs c.hdr c.recSize c.keySize c.dataSize) = recs c from (funext fun p => (recs_spec c p)).symm, this]
    unfold Log.live
    simp
  · rw [← recs_spec, g8]; exact recs_init c

/-- C19 (`_partial`: as C18, plus `maxRec ≤ 127` and, as in C02, `NoStale`: no page is completed while the storage page it overwrites is the one
in the read cache).  After recovery at any point of any life of the file, everything a client observes, lookups, scans, inserts and
flushes, agrees with the log of the pages recovered. -/
theorem C19_usable_partial (D : Durable c lo K P) {d : Data} {L : Log} (h : Life c lo K P d L) (k : Nat)
    (hk : SafeCut c d.dev k) (rb : Page) (sm : Nat → Nat × Nat) (x : Idx) (ops : List Op) (hC : Client c lo K ops)
    (hasc : ∀ r ∈ (cutLog L d.dev k).all, ∀ j ∈ Spec.offered ops, r.1 < j)
    (hP : L.pages.length + ops.length ≤ P) :
    ∃ d', reopen c d.dev k rb sm = (d', 0) ∧ (NoStale c d' x ops →
      Spec.Run (fun _ => True)
        (fun l => l.live (max (Spec.recovered c.N c.B (cutLog L d.dev k).pages.length) (Spec.dropped c.N c.B l.pages.length)))
        c.maxRec c.cmpData (cutLog L d.dev k) (history c d' x ops)) := by
  have h32 : P ≤ 2 ^ 32 := by have := D.bounds.pages; omega
  obtain ⟨J, hlt, m, hm, hd, T⟩ := h.ok D.ok D.bounds h32 D.recs127 D.file32 D.eraser D.spline D.pos
  have hn : d.next = _ := T.sim.next
  obtain ⟨d', n, g1, g2, g3, g4, g5, g6, g7, g8, g9, g10⟩ := reopen_ok D.ok D.bounds h32 D.recs127 D.file32 D.eraser J
    T.sim.sorted T.sim.bound T.sim.full T.cap (by omega) k hk rb sm
  have hs : Spec.recovered c.N c.B n = 0 ∨ c.maxErr ≤ 1 := by
    rcases D.spline with h | h
    · exact Or.inr h
    · exact Or.inl (recovered_small (by omega))
  have hlen : (cutLog L d.dev k).pages.length = n := by unfold cutLog; rw [← g2]; simp only [List.length_take]; omega
  rw [hlen]
  refine ⟨d', g1, ?_⟩
  intro hS
  refine history_ok (m := Spec.recovered c.N c.B n) D.ok hs recovered_dvd D.bounds (by have := D.recs127; omega)
    (G := fun d x ops => NoStale c d x ops) (fun l _ => rfl) ?_ ?_ ops d' x _ (g10 hs) trivial ?_ hC hasc hS
  · intro d L x op ops g _ _ hc
    exact g.1 hc
  · intro d L x op ops d' x' o g _ _ e
    exact g.2 d' x' o e
  · omega

/-- C19 for tables that have not wrapped and do not wrap while they are used (`limit`): no assumption on the cache. -/
theorem C19_usable_unwrapped_partial (D : Durable c lo K P) {d : Data} {L : Log} (h : Life c lo K P d L) (k : Nat)
    (hk : SafeCut c d.dev k) (rb : Page) (sm : Nat → Nat × Nat) (x : Idx) (ops : List Op) (hC : Client c lo K ops)
    (hasc : ∀ r ∈ (cutLog L d.dev k).all, ∀ j ∈ Spec.offered ops, r.1 < j)
    (hP : L.pages.length + ops.length ≤ P) (hN : (cutLog L d.dev k).pages.length ≤ c.N) :
    ∃ d', reopen c d.dev k rb sm = (d', 0) ∧
      Spec.Run (fun l => l.pages.length ≤ c.N) Log.all c.maxRec c.cmpData (cutLog L d.dev k) (history c d' x ops) := by
  have h32 : P ≤ 2 ^ 32 := by have := D.bounds.pages; omega
  obtain ⟨J, hlt, m, hm, hd, T⟩ := h.ok D.ok D.bounds h32 D.recs127 D.file32 D.eraser D.spline D.pos
  have hn : d.next = _ := T.sim.next
  obtain ⟨d', n, g1, g2, g3, g4, g5, g6, g7, g8, g9, g10⟩ := reopen_ok D.ok D.bounds h32 D.recs127 D.file32 D.eraser J
    T.sim.sorted T.sim.bound T.sim.full T.cap (by omega) k hk rb sm
  have hlen : (cutLog L d.dev k).pages.length = n := by unfold cutLog; rw [← g2]; simp only [List.length_take]; omega
  have hz : Spec.recovered c.N c.B n = 0 := recovered_small (by omega)
  rw [hz] at g10
  refine ⟨d', g1, history_ok (m := 0) D.ok (Or.inl rfl) (dvd_zero _) D.bounds (by have := D.recs127; omega)
    (G := fun _ _ _ => True) ?_ ?_ ?_ ops d' x _ (g10 (Or.inl rfl)) hN ?_ hC hasc trivial⟩
  · intro l hl
    unfold Spec.dropped
    rw [if_pos hl, Nat.max_self, Log_live_zero]
  · intro d L x op ops _ T hl hc
    exact unwrapped_safe D.ok T hc hl
  · intros; trivial
  · omega

/-! ### Runs are lives -/

/-- A session of an ascending client is part of a life. -/
theorem Life.run (D : Durable c lo K P) : ∀ (ops : List Op) {d d' : Data} {L : Log} {x x' : Idx}, Life c lo K P d L →
    d.next + ops.length < P → Writer c lo K ops → (∀ r ∈ L.all, ∀ k ∈ Spec.offered ops, r.1 < k) →
    runOps c d x ops = .ok (d', x') → Life c lo K P d' (Spec.logAfter c.maxRec L (history c d x ops)) := by
  have h32 : P ≤ 2 ^ 32 := by have := D.bounds.pages; omega
  intro ops
  induction ops with
  | nil =>
    intro d d' L x x' h _ _ _ e
    simp only [runOps, Res.ok.injEq, Prod.mk.injEq] at e
    obtain ⟨rfl, _⟩ := e
    exact h
  | cons op ops ih =>
    intro d d' L x x' h hP W hgt e
    rw [List.length_cons] at hP
    unfold runOps at e
    obtain ⟨⟨d1, x1, o⟩, h1, e2⟩ := Res.bind_eq_ok e
    simp only at e2
    have hl := Life.op (lo := lo) (K := K) (P := P) h h1 (by
      intro k v hop
      subst hop
      obtain ⟨h2, h3, h4⟩ := W.put k v (by simp)
      exact ⟨h2, h3, h4, fun r hr => hgt r hr k (by simp [Spec.offered])⟩) (by omega)
    obtain ⟨_, _, m, hm, _, T⟩ := h.ok D.ok D.bounds h32 D.recs127 D.file32 D.eraser D.spline D.pos
    obtain ⟨_, _, m1, _, _, T1⟩ := hl.ok D.ok D.bounds h32 D.recs127 D.file32 D.eraser D.spline D.pos
    have n0 : d.next = _ := T.sim.next
    have n1 : d1.next = _ := T1.sim.next
    -- the log of the first operation
    have hstep : (Spec.logAfter c.maxRec L [(op, some o)]).pages.length ≤ L.pages.length + 1 ∧
        (∀ r ∈ (Spec.logAfter c.maxRec L [(op, some o)]).all, ∀ k ∈ Spec.offered ops, r.1 < k) ∧
        ∀ t, Spec.logAfter c.maxRec L ((op, some o) :: t) = Spec.logAfter c.maxRec (Spec.logAfter c.maxRec L [(op, some o)]) t := by
      rcases T.core_step D.ok hm D.bounds (by omega) (by
        intro k v hop
        subst hop
        obtain ⟨h2, h3, h4⟩ := W.put k v (by simp)
        exact ⟨h2, h3, h4, fun r hr => hgt r hr k (by simp [Spec.offered])⟩) h1 with
        ⟨k, v, rfl, rfl, T'⟩ | ⟨k, v, rfl, rfl, T'⟩ | ⟨rfl, rfl, T'⟩ | ⟨hr, T'⟩
      · have hasc := List.pairwise_cons.mp W.asc
        refine ⟨Log_put_pages _ _, ?_, fun t => rfl⟩
        intro r hr k' hk'
        simp only [Spec.logAfter] at hr
        rw [Log_put_all] at hr
        rcases List.mem_append.mp hr with h | h
        · exact hgt r h k' (by simp [Spec.offered, hk'])
        · rw [List.mem_singleton.mp h]; exact hasc.1 k' hk'
      · refine ⟨by simp [Spec.logAfter], ?_, fun t => by simp [Spec.logAfter]⟩
        intro r hr k' hk'
        simp only [Spec.logAfter] at hr
        exact hgt r hr k' (by simp [Spec.offered, hk'])
      · refine ⟨Log_flush_pages, ?_, fun t => rfl⟩
        intro r hr k' hk'
        simp only [Spec.logAfter] at hr
        rw [Log_flush_all] at hr
        exact hgt r hr k' hk'
      · cases op with
        | put k v => simp [Op.isRead] at hr
        | flush => simp [Op.isRead] at hr
        | get k => exact ⟨by simp [Spec.logAfter], fun r hr k' hk' => hgt r hr k' hk', fun t => rfl⟩
        | scan q => exact ⟨by simp [Spec.logAfter], fun r hr k' hk' => hgt r hr k' hk', fun t => rfl⟩
    unfold history
    rw [h1]
    simp only
    rw [hstep.2.2]
    exact ih hl (by omega) W.tail hstep.2.1 e2

/-- C17 (`_partial`: `Durable` configurations).  A new table is used by an ascending client (inserts, flushes, reads in any order, wrapping the
file any number of times), flushed and closed.  Opening the file again succeeds without touching the device, and every lookup
and scan then sees exactly the records of all pages from `Spec.recovered` on, i.e. (`recovered_rule`) those retained before closing except
possibly those of the one block the next page write would have reclaimed. -/
theorem C17_reopen_partial (D : Durable c lo K P) (ops : List Op) (rb rb' : Page) (sm sm' : Nat → Nat × Nat) (x x' y : Idx)
    (d : Data) (hW : Writer c lo K ops) (hP : ops.length + 1 < P)
    (h : runOps c (Data.fresh c rb sm) x (ops ++ [.flush]) = .ok (d, x')) :
    let L := Spec.logAfter c.maxRec Log.empty (history c (Data.fresh c rb sm) x (ops ++ [.flush]))
    ∃ d', recover c d.dev rb' sm' = (d', 0) ∧ d'.dev = d.dev ∧ L.buf = [] ∧ d.min = Spec.dropped c.N c.B L.pages.length ∧
      (∀ k, k < K → ∃ d2, step c d' y (.get k) =
        .ok (d2, y, Spec.answer (L.live (Spec.recovered c.N c.B L.pages.length)) k)) ∧
      (∀ q, KeysOk K q → c.useBmap = false → ∃ d2, step c d' y (.scan q) =
        .ok (d2, y, .rows (Spec.scan c.cmpData q (L.live (Spec.recovered c.N c.B L.pages.length))))) := by
  intro L
  have h32 : P ≤ 2 ^ 32 := by have := D.bounds.pages; omega
  have hoff : Spec.offered (ops ++ [Op.flush]) = Spec.offered ops := by
    have : ∀ l : List Op, Spec.offered (l ++ [Op.flush]) = Spec.offered l := by
      intro l
      induction l with
      | nil => rfl
      | cons a l ih => cases a <;> simp [Spec.offered, ih]
    exact this ops
  have hW' : Writer c lo K (ops ++ [Op.flush]) := by
    refine ⟨by rw [hoff]; exact hW.asc, ?_⟩
    intro k v hm
    rcases List.mem_append.mp hm with h | h
    · exact hW.put k v h
    · simp at h
  have hl : Life c lo K P d L := (Life.new rb sm).run D (ops ++ [Op.flush]) (by simp [Data.fresh]; omega) hW'
    (by simp [Log.all, Log.empty]) h
  obtain ⟨J, hlt, m, hm, hdv, T⟩ := hl.ok D.ok D.bounds h32 D.recs127 D.file32 D.eraser D.spline D.pos
  have hcore := (core_ok D.ok (Or.inl rfl) D.bounds (ops ++ [Op.flush]) _ d x x' Log.empty (fresh_table D.ok rb sm).clr
    (by simp [Data.fresh]; omega) hW' (by simp [Log.all, Log.empty]) h).1
  have hmin : (clr d).min = _ := TableM.dropped (L := L) hcore D.ok.B0
  have hn : d.next = _ := T.sim.next
  -- the buffer is empty after the flush
  have hbuf : L.buf = [] := by
    have : ∀ (ops : List Op) (d0 d : Data) (x x' : Idx) , runOps c d0 x (ops ++ [Op.flush]) = .ok (d, x') →
        recs c d.wbuf = [] := by
      intro ops
      induction ops with
      | nil =>
        intro d0 d x x' e
        simp only [List.nil_append, runOps] at e
        obtain ⟨⟨d1, x1, o⟩, h1, e2⟩ := Res.bind_eq_ok e
        simp only [Res.ok.injEq, Prod.mk.injEq] at e2
        obtain ⟨rfl, _⟩ := e2
        simp only [step] at h1
        rw [flushD_eq D.ok.io D.ok.spline] at h1
        split_ifs at h1 with hf
        · simp only [Res.ok_bind, Res.ok.injEq, Prod.mk.injEq] at h1
          obtain ⟨rfl, _, _⟩ := h1
          apply List.length_eq_zero_iff.mp
          rw [recs_length]
          omega
        · simp only [Res.ok_bind, Res.ok.injEq, Prod.mk.injEq] at h1
          obtain ⟨rfl, _, _⟩ := h1
          exact recs_init c
      | cons op ops ih =>
        intro d0 d x x' e
        simp only [List.cons_append, runOps] at e
        obtain ⟨⟨d1, x1, o⟩, h1, e2⟩ := Res.bind_eq_ok e
        exact ih d1 d x1 x' e2
    rw [← T.sim.buf]
    exact this ops _ d x x' h
  have hend : d.dev.log.take d.dev.log.length = d.dev.log := List.take_length
  have hdev : cutDev c d.dev d.dev.log.length = d.dev := by
    unfold cutDev
    rw [hend, ← J.file_eq]
  have hcount : (Spec.writes d.dev.log).length = L.pages.length := by rw [← wrote_length]; exact J.count
  have hcut : cutLog L d.dev d.dev.log.length = L := by
    unfold cutLog
    rw [hend, hcount, List.take_length]
    conv_rhs => rw [show L = ⟨L.pages, L.buf⟩ from rfl, hbuf]
  -- the last storage operation is a page write
  have hsafe : SafeCut c d.dev d.dev.log.length := by
    left
    intro hi
    rw [hend]
    have key : ∀ d0 : Data, (∀ lo hi, d0.dev.log.getLast? ≠ some (Ev.erase lo hi)) →
        (∀ lo hi, (EDB.sealed c d0).dev.log.getLast? ≠ some (Ev.erase lo hi)) := by
      intro d0 _ lo hi
      have : (EDB.sealed c d0).dev.log = _ ++ [Ev.write (d0.next % c.N) (outPage d0)] := rfl
      rw [this, List.getLast?_concat]
      simp
    have := runOps_induct (c := c) (I := fun d => ∀ lo hi, d.dev.log.getLast? ≠ some (Ev.erase lo hi)) (Q := fun _ => True)
      (by
        intro d d' x x' op o I _ e
        cases op with
        | put k v =>
          simp only [step] at e
          rw [putD_eq D.ok] at e
          split_ifs at e
          · simp only [Res.ok_bind, Res.ok.injEq, Prod.mk.injEq] at e
            obtain ⟨rfl, _⟩ := e
            have I' : ∀ lo hi, (orderCheck c d k).1.dev.log.getLast? ≠ some (Ev.erase lo hi) := by
              rw [(orderCheck_same d k).dev]; exact I
            unfold accepted
            simp only
            split_ifs
            · exact key _ I'
            · exact I'
          · simp only [Res.ok_bind, Res.ok.injEq, Prod.mk.injEq] at e
            obtain ⟨rfl, _⟩ := e
            rw [(orderCheck_same d k).dev]; exact I
        | flush =>
          simp only [step] at e
          rw [flushD_eq D.ok.io D.ok.spline] at e
          split_ifs at e
          · simp only [Res.ok_bind, Res.ok.injEq, Prod.mk.injEq] at e
            obtain ⟨rfl, _⟩ := e
            exact I
          · simp only [Res.ok_bind, Res.ok.injEq, Prod.mk.injEq] at e
            obtain ⟨rfl, _⟩ := e
            exact key _ I
        | get k =>
          simp only [step] at e
          obtain ⟨⟨d1, r, out⟩, h1, e⟩ := Res.bind_eq_ok e
          cases e
          rw [(get_same h1).dev]; exact I
        | scan q =>
          simp only [step] at e
          obtain ⟨⟨d1, x1, rs⟩, h1, e⟩ := Res.bind_eq_ok e
          cases e
          rw [(scanAll_same h1).dev]; exact I) (ops ++ [Op.flush]) _ d x x' (by simp [Data.fresh]) (by simp) h
    exact this 0 hi
  obtain ⟨d', n, g1, g2, g3, g4, g5, g6, g7, g8, g9, g10⟩ := reopen_ok D.ok D.bounds h32 D.recs127 D.file32 D.eraser J
    T.sim.sorted T.sim.bound T.sim.full T.cap (by omega) d.dev.log.length hsafe rb' sm'
  rw [hend, hcount] at g2
  subst g2
  have hs : Spec.recovered c.N c.B L.pages.length = 0 ∨ c.maxErr ≤ 1 := by
    rcases D.spline with h | h
    · exact Or.inr h
    · exact Or.inl (recovered_small (by omega))
  have T' := g10 hs
  rw [hcut] at T'
  unfold reopen at g1
  rw [hdev] at g1 g5
  refine ⟨d', g1, g5, hbuf, hmin, ?_, ?_⟩
  · intro k hk
    obtain ⟨d2, e2, _⟩ := T'.get D.ok D.bounds (by omega) y (by have := D.recs127; omega) hk
    rw [g7] at e2
    exact ⟨d2, e2⟩
  · intro q hq hbm
    obtain ⟨d2, e2, _⟩ := T'.scan D.ok D.bounds (by omega) y hbm hq
    rw [g7] at e2
    exact ⟨d2, e2⟩

/-! ## C45 and C41 over whole lives -/

/-- C45 for files with any number of power failures and reopenings behind them. -/
theorem C45_sorted_storage_life_partial (D : Durable c lo K P) {d : Data} {L : Log} (h : Life c lo K P d L) :
    d.next = L.pages.length ∧ d.min ≤ d.next ∧ d.next ≤ d.min + c.N ∧
    (∀ l, d.min ≤ l → ∀ hl : l < L.pages.length, ∃ p, d.dev.file (l % c.N) = some p ∧ Spec.pageNo p = l ∧
      Spec.pageRecs c.hdr c.recSize c.keySize c.dataSize p = L.pages[l] ∧ L.pages[l] ≠ []) ∧
    Spec.pageRecs c.hdr c.recSize c.keySize c.dataSize d.wbuf = L.buf ∧
    L.all.Pairwise (fun r s => r.1 < s.1) := by
  have h32 : P ≤ 2 ^ 32 := by have := D.bounds.pages; omega
  obtain ⟨J, hlt, m, hm, hd, T⟩ := h.ok D.ok D.bounds h32 D.recs127 D.file32 D.eraser D.spline D.pos
  have hn : d.next = _ := T.sim.next
  refine ⟨hn, T.sim.minle, T.sim.window, ?_, ?_, T.sim.sorted⟩
  · intro l h1 h2
    obtain ⟨p, p1, p2, p3⟩ := T.sim.stored l h1 h2
    refine ⟨p, p1, ?_, by rw [← recs_spec]; exact p2, T.sim.full _ (List.getElem_mem h2)⟩
    rw [← pageId_spec, p3, Nat.mod_eq_of_lt (by omega)]
  · rw [← recs_spec]; exact T.sim.buf

/-- The pages in a well-formed journal. -/
theorem GoodLog.mem {log : List Ev} (h : GoodLog c log) : ∀ ph p, Ev.write ph p ∈ log →
    ph = pageId p % c.N ∧ 0 < pageCount p ∧ pageCount p ≤ c.maxRec := by
  induction h with
  | nil => simp
  | write h q hid hc ih =>
    intro ph p hm
    rcases List.mem_append.mp hm with h | h
    · exact ih ph p h
    · simp only [List.mem_singleton, Ev.write.injEq] at h
      obtain ⟨rfl, rfl⟩ := h
      exact ⟨by rw [hid], hc⟩
  | erase h h1 h2 ih =>
    intro ph p hm
    rcases List.mem_append.mp hm with h | h
    · exact ih ph p h
    · simp at h

/-- The test recovery applies to a page (`looksValid`), for a page with its own number and a legal number of records: it
is accepted iff it holds at most 127 records (or, for pages with 257 or more, if the count modulo 256 is at most 127). -/
theorem C41_recognised_iff (c : Cfg) (p : Page) (h : pageCount p ≤ c.maxRec) :
    looksValid c p (pageId p % c.N) = true ↔ 1 ≤ pageCount p % 256 ∧ pageCount p % 256 ≤ 127 := by
  unfold looksValid toInt8
  simp only [true_and, decide_eq_true_eq]
  split_ifs with h1
  · constructor <;> intro h2 <;> omega
  · constructor <;> intro h2 <;> omega

/-- C41 (`_partial`: at most 127 records per page, see `C41_recognised_iff` and `C41_false`).  In every life of a data
file, every page ever written satisfies the test that recovery applies to the page at that place. -/
theorem C41_recognised_partial (D : Durable c lo K P) {d : Data} {L : Log} (h : Life c lo K P d L) (ph : Nat) (p : Page)
    (hw : Ev.write ph p ∈ d.dev.log) : looksValid c p ph = true := by
  have h32 : P ≤ 2 ^ 32 := by have := D.bounds.pages; omega
  obtain ⟨J, _⟩ := h.ok D.ok D.bounds h32 D.recs127 D.file32 D.eraser D.spline D.pos
  obtain ⟨h1, h2, h3⟩ := J.good.mem ph p hw
  rw [h1, C41_recognised_iff c p h3]
  have := D.recs127
  omega

end

/-! ## The hypotheses are met -/

theorem demo_eraser (P : Nat) : Eraser demo P := fun q => ⟨q, rfl, Or.inl rfl⟩

theorem demo_durable (P : Nat) (h0 : 0 < P) (hP : P < 2 ^ 30) : Durable demo 0 1000 P :=
  ⟨demo_ok _, demo_bounds (by decide) hP, h0, by decide, by decide, demo_eraser P, Or.inl (by decide)⟩

/-- Twelve inserts and a flush: the file of 4 pages has wrapped; 6 page writes and an erase. -/
theorem demo_life : ∃ d x', Life demo 0 1000 100 d (Spec.logAfter 2 Log.empty (history demo demo0 noIdx (demoPuts ++ [Op.flush]))) ∧
    runOps demo demo0 noIdx (demoPuts ++ [Op.flush]) = .ok (d, x') := by
  have h : ((runOps demo demo0 noIdx (demoPuts ++ [Op.flush])).check fun (d, _) => d.next = 6) = true := by decide +kernel
  obtain ⟨⟨d, x'⟩, h1, h2⟩ := Res.check_ok h
  refine ⟨d, x', Life.run (demo_durable 100 (by decide) (by decide)) _ (Life.new _ _) (by decide) ⟨by decide +kernel, ?_⟩
    (by simp [Log.all, Log.empty]) h1, h1⟩
  intro k v h
  simp only [demoPuts, List.mem_append, List.mem_map, List.mem_range] at h
  rcases h with ⟨i, hi, e⟩ | h
  · cases e
    exact ⟨Nat.zero_le _, by omega, rfl⟩
  · simp at h

/-- C18 applies to it at every moment, and says something: when power fails after 6 of its 7 storage operations (four
pages, the erase of the block of pages 0 and 1, and page 4), reopening finds pages 2, 3 and 4. -/
example : ∃ d, Life demo 0 1000 100 d (Spec.logAfter 2 Log.empty (history demo demo0 noIdx (demoPuts ++ [Op.flush]))) ∧
    (∀ k, SafeCut demo d.dev k) ∧ (reopen demo d.dev 6 (fun _ => 0) fun _ => (0, 0)).1.next = 5 ∧
    (reopen demo d.dev 6 (fun _ => 0) fun _ => (0, 0)).1.min = 2 ∧
    (cutLog (Spec.logAfter 2 Log.empty (history demo demo0 noIdx (demoPuts ++ [Op.flush]))) d.dev 6).live 2 =
      [(5, dat 4), (6, dat 5), (7, dat 6), (8, dat 7), (9, dat 8), (10, dat 9)] := by
  obtain ⟨d, x', h1, h2⟩ := demo_life
  refine ⟨d, h1, fun k => Or.inr fun q => rfl, ?_⟩
  have : ((runOps demo demo0 noIdx (demoPuts ++ [Op.flush])).check fun (d, _) =>
      (reopen demo d.dev 6 (fun _ => 0) fun _ => (0, 0)).1.next = 5 ∧
      (reopen demo d.dev 6 (fun _ => 0) fun _ => (0, 0)).1.min = 2 ∧
    (cutLog (Spec.logAfter 2 Log.empty (history demo demo0 noIdx (demoPuts ++ [Op.flush]))) d.dev 6).live 2 =
      [(5, dat 4), (6, dat 5), (7, dat 6), (8, dat 7), (9, dat 8), (10, dat 9)]) = true := by decide +kernel
  rw [h2] at this
  simpa [Res.check] using this

/-- The hypotheses of C17 are met by the same client. -/
example : ∃ d x', Writer demo 0 1000 demoPuts ∧ demoPuts.length + 1 < 100 ∧
    runOps demo (Data.fresh demo (fun _ => 0) fun _ => (0, 0)) noIdx (demoPuts ++ [.flush]) = .ok (d, x') := by
  obtain ⟨d, x', _, h2⟩ := demo_life
  refine ⟨d, x', ⟨by decide +kernel, ?_⟩, by decide, h2⟩
  intro k v h
  simp only [demoPuts, List.mem_map, List.mem_range] at h
  obtain ⟨i, hi, e⟩ := h
  cases e
  exact ⟨Nat.zero_le _, by omega, rfl⟩

/-- The hypotheses of C19 are met: power fails after 2 of those storage operations, and a client inserts two keys and
looks up two, one of them recovered. -/
example : ∃ d L, Life demo 0 1000 100 d L ∧ SafeCut demo d.dev 2 ∧ Client demo 0 1000 [.put 20 (dat 1), .put 21 (dat 2), .get 3, .get 20] ∧
    (cutLog L d.dev 2).all = [(1, dat 0), (2, dat 1), (3, dat 2), (4, dat 3)] ∧
    (∀ r ∈ (cutLog L d.dev 2).all, ∀ j ∈ Spec.offered [.put 20 (dat 1), .put 21 (dat 2), .get 3, .get 20], r.1 < j) ∧
    L.pages.length + 4 ≤ 100 ∧ (cutLog L d.dev 2).pages.length ≤ demo.N := by
  obtain ⟨d, x', h1, h2⟩ := demo_life
  have : ((runOps demo demo0 noIdx (demoPuts ++ [Op.flush])).check fun (d, _) =>
      let L := Spec.logAfter 2 Log.empty (history demo demo0 noIdx (demoPuts ++ [Op.flush]))
      (cutLog L d.dev 2).all = [(1, dat 0), (2, dat 1), (3, dat 2), (4, dat 3)] ∧ L.pages.length + 4 ≤ 100 ∧
      (cutLog L d.dev 2).pages.length ≤ demo.N) = true := by decide +kernel
  rw [h2] at this
  simp only [Res.check, decide_eq_true_eq] at this
  refine ⟨d, _, h1, Or.inr fun q => rfl, ⟨by decide, ?_, ?_, ?_⟩, this.1, ?_, this.2⟩
  · intro k v h
    simp at h
    rcases h with ⟨rfl, rfl⟩ | ⟨rfl, rfl⟩ <;> exact ⟨by decide, by decide, rfl⟩
  · intro k h
    simp at h
    omega
  · intro q h
    simp at h
  · rw [this.1]; decide

end EDB
