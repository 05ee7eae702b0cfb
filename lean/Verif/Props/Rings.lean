import Verif.Proofs.DemoVar
import Verif.Proofs.DemoRlc
import Verif.Proofs.RingRlc

/-!
# C67: the three files of a table are used as rings of erase blocks

`Spec.GoodRing`: every access inside the file, whole blocks erased, every page erased before it is written again, even
wear, and the most recent pages kept.  The client calls what it likes in any order (`Calls`), with any keys, data,
iterators and streams.  Nothing is assumed of the configuration but the block sizes.
-/

namespace EDB

/-- C67 for the variable data file.  The device may refuse any of the requests. -/
theorem C67_variable (c : Cfg) (rb rx rv : Page) (sm : Nat → Nat × Nat) (hv : Bool) (s : Trio)
    (hB : 0 < c.B) (hN : 0 < c.numVar) (hd : c.B ∣ c.numVar) (h : Calls c (Trio.fresh c rb rx rv sm hv) s) :
    Spec.GoodRing c.numVar c.B s.v.dev.log s.v.dev.file :=
  RingFile.good (a := s.v.avail) (n := s.v.next)
    (VarRing.calls (R := fun log n a => ∃ m, RingLog c.numVar c.B log n m ∧ n + a = c.numVar + m * c.B)
      ⟨hB, fun ⟨m, h, hs⟩ ha p _ => ⟨m, h.write (by omega) p, by omega⟩,
        fun ⟨m, h, hs⟩ => ⟨m + 1, h.erase (by omega), by rw [Nat.succ_mul]; omega⟩⟩
      (VarRing.start ⟨0, .nil, by omega⟩ rv hv) h) hN hB hd

/-- C67 for the index file (`_partial`: the device carries out every request; otherwise `C67_false_index`). -/
theorem C67_index_partial (c : Cfg) (rb rx rv : Page) (sm : Nat → Nat × Nat) (hv : Bool) (s : Trio)
    (hB : 0 < c.B) (hN : 0 < c.numIdx) (hd : c.B ∣ c.numIdx) (hio : ∀ n, c.ioOk n = true)
    (h : Calls c (Trio.fresh c rb rx rv sm hv) s) :
    Spec.GoodRing c.numIdx c.B s.x.dev.log s.x.dev.file :=
  RingFile.good (BothRing.calls hB hio
    (show BothRing c (Data.fresh c rb sm) (Idx.fresh c rx) from
      ⟨fun hr => by
        have := RingFile.start c c.N
        unfold DataRing
        simpa [Data.fresh, hr] using this, RingFile.start c c.numIdx⟩) h).2 hN hB hd

/-- C67 for the data file (`_partial`: the device carries out every request, otherwise `C67_false_data`; without record-level
consistency, whose temporary pages are erased and written out of turn). -/
theorem C67_data_partial (c : Cfg) (rb rx rv : Page) (sm : Nat → Nat × Nat) (hv : Bool) (s : Trio)
    (hB : 0 < c.B) (hN : 0 < c.N) (hd : c.B ∣ c.N) (hio : ∀ n, c.ioOk n = true) (hr : c.rlc = false)
    (h : Calls c (Trio.fresh c rb rx rv sm hv) s) :
    Spec.GoodRing c.N c.B s.d.dev.log s.d.dev.file :=
  RingFile.good ((BothRing.calls hB hio
    (show BothRing c (Data.fresh c rb sm) (Idx.fresh c rx) from
      ⟨fun hr => by
        have := RingFile.start c c.N
        unfold DataRing
        simpa [Data.fresh, hr] using this, RingFile.start c c.numIdx⟩) h).1 hr) hN hB hd

/-- Any number of calls, where a block of data pages is never completed by a flush: a call that completes one leaves a record in
the write buffer. -/
inductive CallsIn (c : Cfg) : Trio → Trio → Prop where
  | none (s) : CallsIn c s s
  | one {s t u} (h : CallsIn c s t) (e : Call c t u)
      (hq : c.B ∣ u.d.next → u.d.next ≠ t.d.next → pageCount u.d.wbuf ≠ 0) : CallsIn c s u

/-- C67 for the data file of a table with record-level consistency (`_partial`: the device carries out every request; blocks of at
least two pages, otherwise `C67_false_rlc_one`; no flush completes a block, otherwise `C67_false_rlc_flush`; spline mode; nothing is
said about wear).  Permanent and temporary pages stay inside the file, whole blocks are erased, and no page is written that holds
something. -/
theorem C67_rlc_partial (c : Cfg) (rb rx rv : Page) (sm : Nat → Nat × Nat) (hv : Bool) (s : Trio)
    (hB : 2 ≤ c.B) (hd : c.B ∣ c.N) (h4 : 4 * c.B ≤ c.N) (hio : ∀ n, c.ioOk n = true) (hbs : c.binSearch = false)
    (hr : c.rlc = true) (h : CallsIn c (Trio.fresh c rb rx rv sm hv) s) :
    (∀ ph p, Ev.write ph p ∈ s.d.dev.log → ph < c.N) ∧
    (∀ lo hi, Ev.erase lo hi ∈ s.d.dev.log → c.B ∣ lo ∧ hi = lo + c.B ∧ hi ≤ c.N) ∧
    Spec.ErasedFirst (fun _ => False) s.d.dev.log := by
  have G : RlcGeo c := ⟨by omega, hd, h4⟩
  have I : RHome c s.d := by
    induction h with
    | none => exact ⟨c.B, 0, RGeo.fresh G hr rb sm, by show 0 < c.B; omega⟩
    | one _ e hq ih => exact RHome.call G hB hio hbs hr ih e hq
  obtain ⟨S, fr, I, -⟩ := I
  exact I.log

/-! ### Examples -/

/-- What a client of a table with variable data does is a sequence of calls. -/
theorem Calls.ofOpsV {c : Cfg} : ∀ (ops : List Spec.VOp) (s : Trio) (d d' : Data) (x x' : Idx) (v v' : Var),
    Calls c s ⟨d, x, v⟩ → runOpsV c d x v ops = .ok (d', x', v') → Calls c s ⟨d', x', v'⟩ := by
  intro ops
  induction ops with
  | nil => intro s d d' x x' v v' h e; cases e; exact h
  | cons op ops ih =>
    intro s d d' x x' v v' h e
    unfold runOpsV at e
    obtain ⟨⟨d1, x1, v1, o⟩, h1, e⟩ := Res.bind_eq_ok e
    refine ih s d1 d' x1 x' v1 v' ?_ e
    cases op with
    | put k a b =>
      obtain ⟨⟨d2, x2, v2, r2⟩, h2, h3⟩ := Res.bind_eq_ok h1
      cases h3; exact h.one (.putVar k a b h2)
    | flush =>
      obtain ⟨⟨d2, x2, v2, r2⟩, h2, h3⟩ := Res.bind_eq_ok h1
      cases h3; exact h.one (.flushAll h2)
    | get k =>
      obtain ⟨⟨d2, r2, o2⟩, h2, h3⟩ := Res.bind_eq_ok h1
      cases h3; exact h.one (.get k h2)
    | getVar k =>
      obtain ⟨⟨d2, v2, r2, o2, st⟩, h2, h3⟩ := Res.bind_eq_ok h1
      obtain ⟨⟨v3, bs⟩, h4, h3⟩ := Res.bind_eq_ok h3
      cases h3
      have h5 := h.one (.getVar k h2)
      cases st with
      | none => cases h4; exact h5
      | some st =>
        obtain ⟨⟨v4, st4, b4⟩, h6, h4⟩ := Res.bind_eq_ok h4
        cases h4
        exact h5.one (.read st _ h6)

/-- A table with data, index and variable data, one record per data page. -/
def trio : Cfg := { demoW with useIndex := true, numIdx := 4, bitmapSize := 8 }

/-- The same on devices that refuse some requests. -/
def trioBad : Cfg := { demoW with ioOk := fun n => n != 1 && n != 5 && n != 7 }

def trioOps (reads : Bool) : List Spec.VOp := (List.range 9).flatMap fun i =>
  [.put (10 * i + 5) (dat (UInt8.ofNat i)) (some (blob (7 * i % 23) 3)), .flush] ++ (if reads then [.getVar (10 * i + 5)] else [])

def trio0 (c : Cfg) : Trio := Trio.fresh c (fun _ => 0) (fun _ => 0) (fun _ => 0) (fun _ => (0, 0)) false

def trioRun (c : Cfg) (reads : Bool) : Res (Data × Idx × Var) := runOpsV c (trio0 c).d (trio0 c).x (trio0 c).v (trioOps reads)

/-- The operations on a device without the contents. -/
def places (l : List Ev) : List (Bool × Nat × Nat) := l.map fun
  | .write p _ => (true, p, p + 1)
  | .erase a b => (false, a, b)

/-- After nine inserts all three files have wrapped. -/
example : 0 < trio.B ∧ trio.B ∣ trio.numVar ∧ trio.B ∣ trio.numIdx ∧ trio.B ∣ trio.N ∧ trio.rlc = false ∧ (∀ n, trio.ioOk n = true) ∧
    (trioRun trio true).check (fun (d, x, v) => (places d.dev.log).length = 10 ∧ (places x.dev.log).length = 12 ∧
      places v.dev.log = [(true, 0, 1), (true, 1, 2), (true, 2, 3), (true, 3, 4), (false, 0, 2), (true, 0, 1), (true, 1, 2),
        (false, 2, 4), (true, 2, 3), (true, 3, 4), (false, 0, 2), (true, 0, 1)]) = true :=
  ⟨by decide, by decide, by decide, by decide, rfl, fun _ => rfl, by decide +kernel⟩

/-- The three theorems apply to that run. -/
example : ∃ s, Calls trio (trio0 trio) s ∧ Spec.GoodRing 4 2 s.v.dev.log s.v.dev.file ∧
    Spec.GoodRing 4 2 s.x.dev.log s.x.dev.file ∧ Spec.GoodRing 8 2 s.d.dev.log s.d.dev.file := by
  have h : (trioRun trio true).check (fun _ => true) = true := by decide +kernel
  obtain ⟨⟨d, x, v⟩, h1, -⟩ := Res.check_ok h
  have h2 := Calls.ofOpsV _ _ _ _ _ _ _ _ (Calls.none (c := trio) (trio0 trio)) h1
  exact ⟨_, h2, C67_variable trio _ _ _ _ _ _ (by decide) (by decide) (by decide) h2,
    C67_index_partial trio _ _ _ _ _ _ (by decide) (by decide) (by decide) (fun _ => rfl) h2,
    C67_data_partial trio _ _ _ _ _ _ (by decide) (by decide) (by decide) (fun _ => rfl) rfl h2⟩

/-- Requests for the variable data file are refused, among them the first erase. -/
example : (trioRun trioBad false).check (fun (_, _, v) => v.dev.reqs = 10 ∧ (places v.dev.log).length = 7) = true := by
  decide +kernel

/-- A client that inserts, looks up and flushes; `none` if a flush completes a block. -/
def runQuiet (c : Cfg) : Data → Idx → List Spec.Op → Res (Option (Data × Idx))
  | d, x, [] => .ok (some (d, x))
  | d, x, op :: ops => do
    let (d', x', _) ← stepX c d x op
    if c.B ∣ d'.next → d'.next ≠ d.next → pageCount d'.wbuf ≠ 0 then runQuiet c d' x' ops else .ok none

theorem CallsIn.ofQuiet {c : Cfg} : ∀ (ops : List Spec.Op) (s : Trio) (d d' : Data) (x x' : Idx) (v : Var),
    (∀ op ∈ ops, ∀ q, op ≠ .scan q) → CallsIn c s ⟨d, x, v⟩ → runQuiet c d x ops = .ok (some (d', x')) →
    CallsIn c s ⟨d', x', v⟩ := by
  intro ops
  induction ops with
  | nil => intro s d d' x x' v _ h e; cases e; exact h
  | cons op ops ih =>
    intro s d d' x x' v hns h e
    unfold runQuiet at e
    obtain ⟨⟨d1, x1, o⟩, h1, e⟩ := Res.bind_eq_ok e
    simp only at e
    by_cases hq : c.B ∣ d1.next → d1.next ≠ d.next → pageCount d1.wbuf ≠ 0
    · rw [if_pos hq] at e
      refine ih s d1 d' x1 x' v (fun o ho => hns o (List.mem_cons_of_mem _ ho)) ?_ e
      refine h.one ?_ hq
      cases op with
      | put k a =>
        obtain ⟨⟨d2, x2, r2, w2⟩, h2, h3⟩ := Res.bind_eq_ok h1
        cases h3; exact .put k a 0 h2
      | flush =>
        obtain ⟨⟨d2, x2, r2, w2⟩, h2, h3⟩ := Res.bind_eq_ok h1
        cases h3; exact .flush h2
      | get k =>
        obtain ⟨⟨d2, r2, o2⟩, h2, h3⟩ := Res.bind_eq_ok h1
        cases h3; exact .get k h2
      | scan q => exact absurd rfl (hns _ (List.mem_cons_self) q)
    · rw [if_neg hq] at e; cases e

def rlcOps : List Spec.Op := (List.range 34).flatMap fun i =>
  [Spec.Op.put (10 * i + 5) (dat (UInt8.ofNat i))] ++ (if i = 1 then [.flush, .get 15] else [])

/-- Thirty-four inserts and a flush in a file of eight pages: the temporary area goes twice around the file. -/
example : (runQuiet demoR (trio0 demoR).d (trio0 demoR).x rlcOps).check (fun r => match r with
    | some (d, _) => d.next = 16 ∧ d.rlcStart = 2 ∧ (places d.dev.log).length = 84
    | none => false) = true := by decide +kernel

/-- `C67_rlc_partial` applies to it. -/
example : ∃ s, CallsIn demoR (trio0 demoR) s ∧ Spec.ErasedFirst (fun _ => False) s.d.dev.log := by
  have h : (runQuiet demoR (trio0 demoR).d (trio0 demoR).x rlcOps).check (fun r => r.isSome) = true := by decide +kernel
  obtain ⟨r, h1, h2⟩ := Res.check_ok h
  obtain ⟨⟨d, x⟩, rfl⟩ := Option.isSome_iff_exists.mp h2
  have h3 := CallsIn.ofQuiet rlcOps _ _ _ _ _ _ (by
    intro op hop q hq
    subst hq
    simp only [rlcOps, List.mem_flatMap, List.mem_append] at hop
    obtain ⟨i, -, hop⟩ := hop
    rcases hop with hop | hop
    · simp at hop
    · split_ifs at hop <;> simp at hop) (CallsIn.none (c := demoR) (trio0 demoR)) h1
  exact ⟨_, h3, (C67_rlc_partial demoR _ _ _ _ _ _ (by decide) (by decide) (by decide) (fun _ => rfl) rfl rfl h3).2.2⟩

/-- `GoodRing` is not trivial: the second page of a full file is written again without an erase. -/
example (p : Page) (f : Nat → Option Page) : ¬ Spec.GoodRing 2 1 [.write 0 p, .write 1 p, .erase 0 1, .write 1 p] f := by
  intro h
  have := h.erased
  simp [Spec.ErasedFirst] at this

end EDB
