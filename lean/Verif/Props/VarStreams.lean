import Verif.Proofs.VarStreams
import Verif.Props.VarRecovery
import Verif.Props.VarLives
import Verif.Props.VarKept
import Verif.Props.VarWrap
import Verif.Props.VarUse

/-!
# C73: open streams of variable data
-/

namespace EDB

open Spec (Log VLog VOp VOut SOp SOut)

/-- C73 (`_partial`: the conditions of C26/C27).  A client opens any number of streams on a new table, with an index file or
without, and reads them in pieces of any sizes, in any order, with inserts, flushes, lookups and reads of other streams in
between.  As long as the variable data file has not wrapped, every read gives the next bytes of the data the stream was
opened for, exactly as if the stream were the only one and nothing had happened since: all other operations leave it alone,
and it leaves all other operations alone.  Conditions before each operation (`StreamOk`): no piece ends exactly at the end
of a variable page with more to come (C27), and the conditions of C26 on the read cache, reads of buffered records and the
index. -/
theorem C73_unwrapped_partial (c : Cfg) (lo K : Nat) (ops : List SOp) (rb vrb : Page) (sm : Nat → Nat × Nat) (hvf : Bool) (x : Idx)
    (hok : c.Ok K) (hv : c.VFile) (hB : Bounds c lo K ops.length) (h128 : c.maxRec ≤ 128) (hC : ClientV c lo K (Spec.tableOps ops))
    (hroom : varNeed c 0 (Spec.tableOps ops) ≤ c.numVar * c.vcap)
    (hS : StreamsOk c False (Data.fresh c rb sm) x (Var.fresh c vrb hvf) [] [] ops) :
    Spec.SRun (fun L => L.live (Spec.dropped c.N c.B L.pages.length))
      (fun l k o => o = Spec.vAnswer (l.log.live (Spec.dropped c.N c.B l.log.pages.length)) l.var k)
      c.maxRec VLog.empty [] (historyS c (Data.fresh c rb sm) x (Var.fresh c vrb hvf) [] ops) := by
  have hpc : pageCount (Data.fresh c rb sm).wbuf = 0 := by
    have := congrArg List.length (recs_init c)
    rw [recs_length] at this
    exact this
  have H := historyS_ok (E := (False : Prop)) (mn := 0) (lv := lo) hok hv (dvd_zero _) (Or.inl rfl) hB h128
    (ans := fun l k o => o = Spec.vAnswer (l.log.live (Spec.dropped c.N c.B l.log.pages.length)) l.var k)
    (fun l k o _ h => by rw [Nat.zero_max] at h; exact h (fun h => h)) ops _ x _ VLog.empty ⟨0, [], [], []⟩ [] [] []
    (fresh_vtable hok hv (fun h => h.elim) rb vrb sm hvf) (StreamsAt.nil _ _ _ _) (by simp [Data.fresh]) hC hC.low (by simp [VLog.empty, Log.all, Log.empty])
    (Or.inr (by rw [hpc]; simpa using hroom)) hS
  simpa only [Nat.zero_max] using H

/-- C73 (`_partial`).  The same when the variable data file wraps around: a stream is read correctly as long as no variable
page was reclaimed since it was opened (and the cached variable page is up to date, C28).  Otherwise the library may deliver
the bytes of other records: `C73_false_reclaimed`. -/
theorem C73_wrapped_partial (c : Cfg) (lo K : Nat) (ops : List SOp) (rb vrb : Page) (sm : Nat → Nat × Nat) (hvf : Bool) (x : Idx)
    (hok : c.Ok K) (hv : c.VFile) (hid : c.eraseFx = id) (hB : Bounds c lo K ops.length) (h128 : c.maxRec ≤ 128)
    (hC : ClientV c lo K (Spec.tableOps ops))
    (hS : StreamsOk c True (Data.fresh c rb sm) x (Var.fresh c vrb hvf) [] [] ops) :
    Spec.SRun (fun L => L.live (Spec.dropped c.N c.B L.pages.length))
      (fun l k o => Spec.vAnswerOrGone (l.log.live (Spec.dropped c.N c.B l.log.pages.length)) l.var k o)
      c.maxRec VLog.empty [] (historyS c (Data.fresh c rb sm) x (Var.fresh c vrb hvf) [] ops) := by
  have H := historyS_ok (E := (True : Prop)) (mn := 0) (lv := lo) hok hv (dvd_zero _) (Or.inl rfl) hB h128
    (ans := fun l k o => Spec.vAnswerOrGone (l.log.live (Spec.dropped c.N c.B l.log.pages.length)) l.var k o)
    (fun l k o h _ => by rw [Nat.zero_max] at h; exact h) ops _ x _ VLog.empty ⟨0, [], [], []⟩ [] [] []
    (fresh_vtable hok hv (fun _ => hid) rb vrb sm hvf) (StreamsAt.nil _ _ _ _) (by simp [Data.fresh]) hC hC.low (by simp [VLog.empty, Log.all, Log.empty])
    (Or.inl trivial) hS
  simpa only [Nat.zero_max] using H

/-- C73 (`_partial`).  The same after any life of the table, with any number of wraps of both files, power failures and
reopenings (C70): the streams are those opened since the table was last opened.  The new keys exceed all keys offered before. -/
theorem C73_life_partial (c : Cfg) (lo K P : Nat) (hok : c.Ok K) (hv : c.VFile) (hid : c.eraseFx = id) (hB : Bounds c lo K P)
    (h127 : c.maxRec ≤ 127) (hN32 : c.N < 2 ^ 32) (R n0 Q : Nat) (first : Nat → Nat) (d : Data) (x : Idx) (v : Var) (l : VLog)
    (h : LifeW c lo K P R n0 Q first d x v l) (ops : List SOp) (hP : d.next + ops.length ≤ P) (hP0 : 0 < P)
    (hC : ClientV c lo K (Spec.tableOps ops)) (hQ : ∀ k ∈ Spec.offeredV (Spec.tableOps ops), Q ≤ k)
    (hS : StreamsOk c True d x v [] [] ops) :
    Spec.SRun (fun L => L.live (max (Spec.recovered c.N c.B R) (Spec.dropped c.N c.B L.pages.length)))
      (fun l k o => Spec.vAnswerOrGone (l.log.live (max (Spec.recovered c.N c.B R) (Spec.dropped c.N c.B l.log.pages.length))) l.var k o)
      c.maxRec l [] (historyS c d x v [] ops) := by
  obtain ⟨lv, low, g, I⟩ := h.inv hok hv hid hB h127 hN32 hP0
  exact historyS_ok hok hv recovered_dvd I.spl hB (by omega) (fun l k o h _ => h) ops _ x _ l g [] [] [] I.tab (StreamsAt.nil _ _ _ _) hP hC
    (fun k hk => le_trans I.keys (hQ k hk)) (fun r hr k hk => lt_of_lt_of_le (I.below r hr) (hQ k hk)) (Or.inl trivial) hS

/-! ### The hypotheses are satisfiable -/

theorem streamLoop_sync {c : Cfg} {len : Nat} : ∀ (f : Nat) {v v' : Var} {st st' : Stream} {pg : Nat} {acc bs : List Byte}, VSync v →
    streamLoop c len f v st pg acc = .ok (v', st', bs) → VSync v' := by
  intro f
  induction f with
  | zero => intro v v' st st' pg acc bs _ h; simp [streamLoop] at h
  | succ f ih =>
    intro v v' st st' pg acc bs hs h
    unfold streamLoop at h
    simp only at h
    split_ifs at h
    · exact ih (readVar_sync hs _).2.1 h
    · cases h; exact (readVar_sync hs _).2.1
    · exact ih hs h
    · cases h; exact hs

theorem streamRead_sync {c : Cfg} {v v' : Var} {st st' : Stream} {n : Nat} {bs : List Byte} (hs : VSync v)
    (h : streamRead c v st n = .ok (v', st', bs)) : VSync v' := by
  unfold streamRead at h
  simp only at h
  split_ifs at h
  · exact streamLoop_sync _ (readVar_sync hs _).2.1 h
  · cases h; exact (readVar_sync hs _).2.1

theorem setupStream_sync {c : Cfg} {d : Data} {v v' : Var} {k i : Nat} {r : Int} {st : Option Stream} (hs : VSync v)
    (h : setupStream c d v k i = .ok (v', r, st)) : VSync v' := by
  unfold setupStream at h
  simp only at h
  split_ifs at h <;> cases h
  · exact hs
  · exact hs
  · exact (readVar_sync hs _).2.1
  · exact (readVar_sync hs _).2.1
  · exact (readVar_sync hs _).2.1

theorem getVar_sync {c : Cfg} {d d' : Data} {v v' : Var} {k : Nat} {r : Int} {out : Option (List Byte)} {st : Option Stream} (hs : VSync v)
    (h0 : pageCount d.wbuf = 0) (h : getVar c d v k = .ok (d', v', r, out, st)) : VSync v' := by
  unfold getVar searchBuffer at h
  rw [if_pos h0] at h
  by_cases hv : c.useVdata = true
  · rw [if_pos hv] at h
    simp only [Res.ok_bind, ne_eq, not_true_eq_false, if_false] at h
    cases hg : get c d k with
    | ok p =>
      obtain ⟨d1, r1, o1⟩ := p
      rw [hg] at h
      simp only [Res.ok_bind] at h
      by_cases hr : r1 = 0
      · rw [if_pos hr] at h
        cases hn : searchNode c d1.rbuf k with
        | ok q =>
          rw [hn] at h
          simp only [Res.ok_bind] at h
          cases q with
          | none => cases h
          | some i =>
            simp only at h
            split_ifs at h
            cases hq : setupStream c d1 v k i with
            | ok t =>
              rw [hq] at h
              simp only [Res.ok_bind] at h
              cases h
              exact setupStream_sync hs hq
            | _ => rw [hq] at h; cases h
        | _ => rw [hn] at h; cases h
      · rw [if_neg hr] at h; cases h; exact hs
    | _ => rw [hg] at h; cases h
  · rw [if_neg hv] at h; cases h; exact hs

/-- Sufficient for `StreamOk`; `sy`: the cached variable page is known to be up to date. -/
def streamB (c : Cfg) (wrap sy : Bool) (d : Data) (x : Idx) (v : Var) (S : List (Option Stream)) (B : List Nat) : SOp → Bool
  | .op o => cacheFreeB c d v o && cleanB c d v o && (!wrap || wrapB c d v o) && (decide (o ≠ .flush) || !c.useIndex || decide (pageCount x.wbuf < c.maxIdx))
  | .opn k => cleanB c d v (.getVar k) && (!wrap || (sy && decide (pageCount d.wbuf = 0)))
  | .read i n => match S[i]? with
    | some (some st) => (decide (min n (st.total - st.read) = 0) || decide (st.total ≤ st.read + min n (st.total - st.read)) ||
        decide ((st.off % c.pageSize - c.vhdr + min n (st.total - st.read)) % c.vcap ≠ 0)) &&
        (!wrap || (sy && decide (B[i]? = some (Spec.dropped c.numVar c.B v.next))))
    | _ => true

/-- Is the cached variable page known to be up to date after the operation? -/
def syncB (sy : Bool) (d : Data) (v' : Var) : SOp → Bool
  | .op (.get _) => sy
  | .op _ => v'.buffered.isNone
  | .opn _ => sy && decide (pageCount d.wbuf = 0)
  | .read _ _ => sy

/-- Sufficient for `StreamsOk`. -/
def streamsB (c : Cfg) (wrap : Bool) : Bool → Data → Idx → Var → List (Option Stream) → List Nat → List SOp → Bool
  | _, _, _, _, _, _, [] => true
  | sy, d, x, v, S, B, op :: ops => streamB c wrap sy d x v S B op && match stepS c d x v S op with
    | .ok (d', x', v', S', _) => streamsB c wrap (syncB sy d v' op) d' x' v' S' (openedAt c B v' op) ops
    | _ => true

theorem streamB_ok {c : Cfg} {wrap sy : Bool} {d : Data} {x : Idx} {v : Var} {S : List (Option Stream)} {B : List Nat} {op : SOp}
    (hsy : sy = true → VSync v) (h : streamB c wrap sy d x v S B op = true) : StreamOk c (wrap = true) d x v S B op := by
  cases op with
  | op o =>
    simp only [streamB, Bool.and_eq_true, Bool.or_eq_true, Bool.not_eq_true', decide_eq_true_eq] at h
    obtain ⟨⟨⟨h1, h2⟩, h3⟩, h4⟩ := h
    refine ⟨cacheFreeB_ok _ _ _ h1, cleanB_ok _ v _ h2, fun hw => wrapB_ok _ _ _ (h3.resolve_left (by rw [hw]; decide)), ?_⟩
    intro ho hu
    rcases h4 with (h4 | h4) | h4
    · exact absurd ho h4
    · rw [hu] at h4; cases h4
    · exact h4
  | opn k =>
    simp only [streamB, Bool.and_eq_true, Bool.or_eq_true, Bool.not_eq_true', decide_eq_true_eq] at h
    refine ⟨cleanB_ok _ v _ h.1, fun hw => ?_⟩
    obtain ⟨h1, h2⟩ := h.2.resolve_left (by rw [hw]; decide)
    show VSync (readFrom c d v k)
    unfold readFrom
    rw [if_neg (by rintro ⟨i, hi, -⟩; omega)]
    exact hsy h1
  | read i n =>
    intro st hst
    simp only [streamB, hst, Bool.and_eq_true, Bool.or_eq_true, Bool.not_eq_true', decide_eq_true_eq] at h
    refine ⟨fun h1 h2 => ?_, fun hw => ?_⟩
    · rcases h.1 with (h3 | h3) | h3
      · omega
      · omega
      · exact h3
    · obtain ⟨h1, h2⟩ := h.2.resolve_left (by rw [hw]; decide)
      exact ⟨hsy h1, h2⟩

theorem streamsB_ok {c : Cfg} {wrap : Bool} : ∀ (ops : List SOp) (sy : Bool) (d : Data) (x : Idx) (v : Var) (S : List (Option Stream)) (B : List Nat),
    (sy = true → VSync v) → streamsB c wrap sy d x v S B ops = true → StreamsOk c (wrap = true) d x v S B ops := by
  intro ops
  induction ops with
  | nil => intros; exact trivial
  | cons op ops ih =>
    intro sy d x v S B hsy h
    unfold streamsB at h
    rw [Bool.and_eq_true] at h
    refine ⟨streamB_ok hsy h.1, ?_⟩
    intro d' x' v' S' o e
    have h2 := h.2
    rw [e] at h2
    refine ih _ _ _ _ _ _ ?_ h2
    intro hs
    cases op with
    | op o =>
      cases o with
      | get k =>
        simp only [stepS, stepV] at e
        cases hg : get c d k with
        | ok p =>
          rw [hg] at e
          simp only [Res.ok_bind] at e
          cases e
          exact hsy hs
        | _ => rw [hg] at e; cases e
      | _ =>
        simp only [syncB, Option.isNone_iff_eq_none] at hs
        intro ph hph
        rw [hs] at hph; cases hph
    | opn k =>
      simp only [syncB, Bool.and_eq_true, decide_eq_true_eq] at hs
      simp only [stepS] at e
      cases hg : getVar c d v k with
      | ok p =>
        rw [hg] at e
        simp only [Res.ok_bind] at e
        cases e
        exact getVar_sync (hsy hs.1) hs.2 hg
      | _ => rw [hg] at e; cases e
    | read i n =>
      simp only [syncB] at hs
      simp only [stepS] at e
      split at e
      · rename_i st _
        cases hg : streamRead c v st n with
        | ok p =>
          rw [hg] at e
          simp only [Res.ok_bind] at e
          cases e
          exact streamRead_sync (hsy hs) hg
        | _ => rw [hg] at e; cases e
      · cases e; exact hsy hs

/-- Two streams read alternately, with inserts, a flush and a lookup in between. -/
def demoSOps : List SOp :=
  [.op (.put 1 (dat 0) (some (blob 40 10))), .op (.put 2 (dat 1) (some (blob 30 60))), .op .flush, .opn 1, .read 0 7, .opn 2, .read 1 12,
   .op (.put 3 (dat 2) (some (blob 25 90))), .read 0 10, .op (.put 4 (dat 3) none), .op (.put 5 (dat 4) (some (blob 5 120))), .opn 4, .read 2 3,
   .op (.getVar 3), .read 1 100, .op .flush, .read 0 20, .read 0 20, .read 0 20]

/-- The hypotheses of `C73_unwrapped_partial` … -/
example : demoV.Ok 1000 ∧ demoV.VFile ∧ Bounds demoV 1 1000 demoSOps.length ∧ demoV.maxRec ≤ 128 ∧ ClientV demoV 1 1000 (Spec.tableOps demoSOps) ∧
    varNeed demoV 0 (Spec.tableOps demoSOps) ≤ demoV.numVar * demoV.vcap ∧ StreamsOk demoV False demoV0 noIdx demoVar0 [] [] demoSOps :=
  ⟨demoV_ok _, demoV_vok.toVFile, demoV_bounds (by decide) (by decide), by decide, clientVB_ok (by decide +kernel), by decide +kernel,
    by simpa using streamsB_ok (wrap := false) demoSOps false demoV0 noIdx demoVar0 [] [] (by simp) (by decide +kernel)⟩

/-- … and what the client observes. -/
example : (historyS demoV demoV0 noIdx demoVar0 [] demoSOps).drop 3 =
    [(.opn 1, some (.opened 0 (some (dat 0)) true)), (.read 0 7, some (.bytes (blob 7 10))), (.opn 2, some (.opened 0 (some (dat 1)) true)),
     (.read 1 12, some (.bytes (blob 12 60))), (.op (.put 3 (dat 2) (some (blob 25 90))), some (.res (.code 0))),
     (.read 0 10, some (.bytes (blob 10 17))), (.op (.put 4 (dat 3) none), some (.res (.code 0))),
     (.op (.put 5 (dat 4) (some (blob 5 120))), some (.res (.code 0))), (.opn 4, some (.opened 0 (some (dat 3)) false)), (.read 2 3, some .noStream),
     (.op (.getVar 3), some (.res (.gotVar 0 (some (dat 2)) (some (blob 25 90))))), (.read 1 100, some (.bytes (blob 18 72))),
     (.op .flush, some (.res (.code 0))), (.read 0 20, some (.bytes (blob 20 27))), (.read 0 20, some (.bytes (blob 3 47))), (.read 0 20, some (.bytes []))] := by
  decide +kernel

/-- Operations on the table before the streams are opened. -/
theorem streamsOk_ops {c : Cfg} {wrap : Prop} {S : List (Option Stream)} {B : List Nat} {rest : List SOp} : ∀ (pre : List VOp) (d : Data) (x : Idx) (v : Var),
    Along c (CacheFree c) d x v pre → Along c (CleanRead c) d x v pre → (wrap → Along c (WrapSafe c) d x v pre) → IdxSafe c d x v pre →
    (∀ d' x' v', runOpsV c d x v pre = .ok (d', x', v') → StreamsOk c wrap d' x' v' S B rest) → StreamsOk c wrap d x v S B (pre.map SOp.op ++ rest) := by
  intro pre
  induction pre with
  | nil => intro d x v _ _ _ _ h; exact h d x v rfl
  | cons op pre ih =>
    intro d x v h1 h2 h3 h4 h
    refine ⟨⟨h1.1, h2.1, fun hw => (h3 hw).1, h4.1⟩, ?_⟩
    intro d' x' v' S' o e
    simp only [stepS] at e
    cases hs : stepV c d x v op with
    | ok p =>
      obtain ⟨d1, x1, v1, o1⟩ := p
      rw [hs] at e
      simp only [Res.ok_bind] at e
      cases e
      refine ih _ _ _ (h1.2 _ _ _ _ hs) (h2.2 _ _ _ _ hs) (fun hw => (h3 hw).2 _ _ _ _ hs) (h4.2 _ _ _ _ hs) ?_
      intro d2 x2 v2 hr
      refine h d2 x2 v2 ?_
      simp only [runOpsV, hs, Res.ok_bind]
      exact hr
    | _ => rw [hs] at e; cases e

/-- Streams read alternately after five inserts into the file of four variable pages. -/
def demoSWTail : List SOp := [.opn 1, .opn 4, .opn 5, .read 1 6, .op (.get 2), .read 2 9, .read 0 1, .read 1 20, .read 2 20]

/-- All of it. -/
def demoSWOps : List SOp := (demoWPuts ++ [VOp.flush]).map SOp.op ++ demoSWTail

/-- The hypotheses of `C73_wrapped_partial` … -/
example : demoW.Ok 1000 ∧ demoW.VFile ∧ demoW.eraseFx = id ∧ Bounds demoW 1 1000 demoSWOps.length ∧ demoW.maxRec ≤ 128 ∧
    ClientV demoW 1 1000 (Spec.tableOps demoSWOps) ∧ StreamsOk demoW True demoW0 noIdx demoVarW0 [] [] demoSWOps := by
  refine ⟨demoW_ok _, demoW_vok.toVFile, rfl, demoW_bounds (by decide) (by decide), by decide, clientVB_ok (by decide +kernel), ?_⟩
  obtain ⟨h1, h2⟩ := phase_along (lo := 1) (demoW_ok 1000) demoW_vok rfl (demoW_bounds (P := 100) (by decide) (by decide)) (by decide) (by decide)
    demoWReads demoW_reads demoWPuts demoW0 noIdx demoVarW0 VLog.empty ⟨0, [], [], []⟩
    (fresh_vtable (demoW_ok _) demoW_vok (fun _ => rfl) _ _ _ _) (by decide) (clientVB_ok (by decide +kernel)) demoW_puts
    (by simp [VLog.empty, Log.all, Log.empty]) (fresh_vph demoW_vok _ _) rfl (Or.inr rfl) (fun h => absurd h (by decide)) (fun _ => demoW_edge) (idxSafe_plain rfl _ _ _ _)
  rw [show demoWPuts ++ VOp.flush :: demoWReads = (demoWPuts ++ [.flush]) ++ demoWReads by simp] at h1 h2
  refine streamsOk_ops _ _ _ _ (along_init h2) (alongB_ok (cleanB_ok (c := demoW)) _ _ _ _ (by decide +kernel)) (fun _ => along_init h1)
    (idxSafe_plain rfl _ _ _ _) ?_
  intro d x v hr
  have hs : VSync (readFrom demoW d v 1) := (h1.append _ _ _ _ _ hr).1
  have e : ((runOpsV demoW demoW0 noIdx demoVarW0 (demoWPuts ++ [.flush])).check fun s =>
      decide (pageCount s.1.wbuf = 0) && streamsB demoW true true s.1 s.2.1 s.2.2 [] [] demoSWTail) = true := by decide +kernel
  rw [hr] at e
  simp only [Res.check, Bool.and_eq_true, decide_eq_true_eq] at e
  unfold readFrom at hs
  rw [if_neg (by rintro ⟨i, hi, -⟩; omega)] at hs
  simpa using streamsB_ok (wrap := true) demoSWTail true d x v [] [] (fun _ => hs) e.2

/-- … and what the client observes: the data of record 1 has been reclaimed. -/
example : (historyS demoW demoW0 noIdx demoVarW0 [] demoSWOps).drop 6 =
    [(.opn 1, some (.opened 1 (some (dat 0)) false)), (.opn 4, some (.opened 0 (some (dat 3)) true)), (.opn 5, some (.opened 0 (some (dat 4)) true)),
     (.read 1 6, some (.bytes (blob 6 30))), (.op (.get 2), some (.res (.got 0 (some (dat 1))))), (.read 2 9, some (.bytes (blob 9 40))),
     (.read 0 1, some .noStream), (.read 1 20, some (.bytes (blob 14 36))), (.read 2 20, some (.bytes (blob 11 49)))] := by
  decide +kernel

/-- Streams read alternately after a power failure and reopening, then an insert. -/
def demoSLTail : List SOp :=
  [.opn 1, .opn 4, .opn 5, .read 1 6, .op (.get 2), .read 2 9, .read 0 1, .read 1 20, .read 2 20, .op (.put 6 (dat 5) (some (blob 20 50)))]

/-- The hypotheses of `C73_life_partial`: five inserts and a flush (the variable data file wraps), the power failure, and the
streams of the table opened again. -/
example : ∃ R n0 Q first d x v l, LifeW demoW 1 1000 100 R n0 Q first d x v l ∧ d.next + demoSLTail.length ≤ 100 ∧
    ClientV demoW 1 1000 (Spec.tableOps demoSLTail) ∧ (∀ k ∈ Spec.offeredV (Spec.tableOps demoSLTail), Q ≤ k) ∧
    StreamsOk demoW True d x v [] [] demoSLTail ∧
    historyS demoW d x v [] demoSLTail =
      [(.opn 1, some (.opened 1 (some (dat 0)) false)), (.opn 4, some (.opened 0 (some (dat 3)) true)), (.opn 5, some (.opened 0 (some (dat 4)) true)),
       (.read 1 6, some (.bytes (blob 6 30))), (.op (.get 2), some (.res (.got 0 (some (dat 1))))), (.read 2 9, some (.bytes (blob 9 40))),
       (.read 0 1, some .noStream), (.read 1 20, some (.bytes (blob 14 36))), (.read 2 20, some (.bytes (blob 11 49))),
       (.op (.put 6 (dat 5) (some (blob 20 50))), some (.res (.code 0)))] := by
  obtain ⟨R, n0, Q, first, d, x, v, l, h1, h2, -, h4, -, -, h5⟩ := demoWAgain_ok (W := fun d x v =>
    (decide (d.next < 80) && streamsB demoW true true d x v [] [] demoSLTail) && decide (historyS demoW d x v [] demoSLTail =
      [(.opn 1, some (.opened 1 (some (dat 0)) false)), (.opn 4, some (.opened 0 (some (dat 3)) true)), (.opn 5, some (.opened 0 (some (dat 4)) true)),
       (.read 1 6, some (.bytes (blob 6 30))), (.op (.get 2), some (.res (.got 0 (some (dat 1))))), (.read 2 9, some (.bytes (blob 9 40))),
       (.read 0 1, some .noStream), (.read 1 20, some (.bytes (blob 14 36))), (.read 2 20, some (.bytes (blob 11 49))),
       (.op (.put 6 (dat 5) (some (blob 20 50))), some (.res (.code 0)))])) (by decide +kernel)
  simp only [Bool.and_eq_true, decide_eq_true_eq] at h5
  refine ⟨R, n0, Q, first, d, x, v, l, h1, ?_, clientVB_ok (by decide +kernel), ?_, ?_, h5.2⟩
  · have : demoSLTail.length = 10 := rfl
    omega
  · intro k hk
    have : k = 6 := by simpa [demoSLTail, Spec.tableOps, Spec.offeredV] using hk
    omega
  · simpa using streamsB_ok (wrap := true) demoSLTail true d x v [] [] (fun _ => h2) h5.1.2

end EDB
