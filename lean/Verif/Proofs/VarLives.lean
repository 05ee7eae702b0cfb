import Verif.Props.Rings
import Verif.Proofs.VarOn
import Verif.Spec.Lives

/-! Helper lemmas: lives of tables whose variable data file wraps, with power failures. -/

namespace EDB

open Spec (Log VLog VOp VOut Rec)

/-- An operation of a client that plays by the rules: new keys exceed all keys ever offered (`Q`), also those of records lost in
a power failure. -/
structure AllowedW (c : Cfg) (lo K P Q : Nat) (d : Data) (v : Var) (op : VOp) : Prop where
  client : ClientV c lo K [op]
  new : ∀ k ∈ Spec.offeredV [op], Q ≤ k
  pages : d.next + 1 < P
  cache : CacheFree c d v op
  clean : CleanRead c d v op
  wrap : WrapSafe c d v op

/-- The variable pages on which the data of the records starts. -/
def startPage (c : Cfg) (d : Data) (v : Var) (first : Nat → Nat) : VOp → VOut → Nat → Nat
  | .put k _ (some _), .code 0 => fun j => if j = k then (preVar c d v).next else first j
  | _, _ => first

/-- Life of a table with variable data: keys in `[lo, K)`, fewer than `P` data pages ever written.  Number of data pages and of
variable pages found at the last reopening (0: not reopened yet); no key offered so far is `Q` or larger; the variable page on
which the data of a record starts; the state of the library; and what was stored. -/
inductive LifeW (c : Cfg) (lo K P : Nat) : Nat → Nat → Nat → (Nat → Nat) → Data → Idx → Var → VLog → Prop
  /-- created empty -/
  | new (rb vrb : Page) (sm : Nat → Nat × Nat) (hvf : Bool) (x : Idx) :
      LifeW c lo K P 0 0 lo (fun _ => 0) (Data.fresh c rb sm) x (Var.fresh c vrb hvf) VLog.empty
  /-- one client operation -/
  | op {R n0 Q : Nat} {first : Nat → Nat} {d d' : Data} {x x' : Idx} {v v' : Var} {l : VLog} {op : VOp} {o : VOut}
      (h : LifeW c lo K P R n0 Q first d x v l) (A : AllowedW c lo K P Q d v op) (hx : op = .flush → IdxRoom c x)
      (e : stepV c d x v op = .ok (d', x', v', o)) :
      LifeW c lo K P R n0 (Spec.nextKey Q op) (startPage c d v first op o) d' x' v' (Spec.vlogAfter c.maxRec l [(op, some o)])
  /-- power failure during an operation (during a `get`: between two operations), and reopening -/
  | cut {R n0 Q : Nat} {first : Nat → Nat} {d d'' : Data} {x x'' : Idx} {v v'' : Var} {l : VLog} {op : VOp} {D V : Dev}
      (h : LifeW c lo K P R n0 Q first d x v l) (A : AllowedW c lo K P Q d v op) (hop : op ≠ .flush) (hf : PowerFail c d x v op D V)
      (hspl : (Spec.writes D.log).length ≤ c.N ∨ c.maxErr ≤ 1) (h32 : (Spec.writes V.log).length + 1 < 2 ^ 32)
      (hV : (Spec.writes V.log).length = 1 → ¬ LonePage c V) (rb vrb : Page) (sm : Nat → Nat × Nat) (hvf : Bool)
      (hr : reopenV c D V rb sm vrb hvf = (d'', v'', 0)) :
      LifeW c lo K P (Spec.writes D.log).length v''.next (Spec.nextKey Q op) first d'' x'' v''
        ⟨⟨(l.log.pages ++ [l.log.buf]).take (Spec.writes D.log).length, []⟩, l.var⟩

/-- What is known of such a table. -/
structure LifeInvW (c : Cfg) (lo K P R n0 Q : Nat) (first : Nat → Nat) (d : Data) (v : Var) (l : VLog) (lv low : Nat) (g : Gh) : Prop where
  tab : VTableM c lo lv K (Spec.recovered c.N c.B R) ⟨True, firstRead c.numVar c.B n0, low⟩ d v l g
  spl : Spec.recovered c.N c.B R = 0 ∨ c.maxErr ≤ 1
  old : R ≤ l.log.pages.length
  jr : Journal c d l.log
  fit : ∀ r ∈ l.log.all, r.1 + 1 < K
  pages : d.next < P
  ring : VarRing c (LRing c.numVar c.B True) v
  keys : lv ≤ Q
  below : ∀ r ∈ l.log.all, r.1 < Q
  first : ∀ e ∈ g.es, first e.key = e.a / c.vcap

section
variable {c : Cfg} {lo K P R n0 Q lv low : Nat} {first : Nat → Nat} {d d' : Data} {x x' : Idx} {v v' : Var} {l l' : VLog} {g g' : Gh} {op : VOp} {o : VOut}

theorem VObs.log (h : VObs c d l g' op o l') : l.log.pages <+: l'.log.pages ∧ ∀ r ∈ l'.log.all, r ∈ l.log.all ∨ ∃ b, op = .put r.1 r.2 b := by
  cases op with
  | put k a b =>
    rcases h with ⟨-, rfl⟩ | ⟨-, rfl, -⟩
    · refine ⟨?_, ?_⟩
      · show l.log.pages <+: (l.log.put c.maxRec (k, a)).pages
        unfold Log.put
        split_ifs
        · exact List.prefix_append _ _
        · exact List.prefix_rfl
      · intro r hr
        have hr : r ∈ (l.log.put c.maxRec (k, a)).all := hr
        rw [Log_put_all] at hr
        rcases List.mem_append.mp hr with h | h
        · exact Or.inl h
        · rw [List.mem_singleton.mp h]
          exact Or.inr ⟨b, rfl⟩
    · exact ⟨List.prefix_rfl, fun r hr => Or.inl hr⟩
  | flush =>
    obtain ⟨-, rfl⟩ := h
    refine ⟨?_, ?_⟩
    · show l.log.pages <+: l.log.flush.pages
      unfold Log.flush
      split_ifs
      · exact List.prefix_rfl
      · exact List.prefix_append _ _
    · intro r hr
      have hr : r ∈ l.log.flush.all := hr
      rw [Log_flush_all] at hr
      exact Or.inl hr
  | get k => obtain ⟨rfl, -⟩ := h; exact ⟨List.prefix_rfl, fun r hr => Or.inl hr⟩
  | getVar k => obtain ⟨rfl, -⟩ := h; exact ⟨List.prefix_rfl, fun r hr => Or.inl hr⟩

theorem AllowedW.next (A : AllowedW c lo K P Q d v op) : Q ≤ Spec.nextKey Q op := by
  cases op with
  | put k a b =>
    have := A.new k (by simp [Spec.offeredV])
    simp only [Spec.nextKey]
    omega
  | flush => exact le_refl _
  | get k => exact le_refl _
  | getVar k => exact le_refl _

theorem LifeInvW.step (hok : c.Ok K) (hv : c.VFile) (hB : Bounds c lo K P) (h128 : c.maxRec ≤ 128)
    (I : LifeInvW c lo K P R n0 Q first d v l lv low g) (A : AllowedW c lo K P Q d v op) (x : Idx)
    (hx : op = .flush → IdxRoom c x) :
    ∃ d' x' v' l' g' o, stepV c d x v op = .ok (d', x', v', o) ∧ VObs c d l g' op o l' ∧ (∃ t, g'.es = g.es ++ t) ∧
      (∀ k, op = .getVar k → g'.es = g.es) ∧ LifeInvW c lo K P R n0 (Spec.nextKey Q op) (startPage c d v first op o) d' v' l' lv low g' := by
  have hQ := A.next
  obtain ⟨d', x', v', l', g', o, e, h1, h2, ⟨t, h3, h3'⟩, h5, -, h4⟩ := I.tab.stepX hok I.spl hv hB h128 x (by have := A.pages; omega)
    A.client (fun k hk => le_trans I.keys (A.new k hk)) (fun r hr k hk => lt_of_lt_of_le (I.below r hr) (A.new k hk)) A.cache
    (fun _ => A.wrap) hx (m := 0) (Or.inl trivial)
  obtain ⟨T', t1, -, -⟩ := h4 (fun k hk => by have := A.clean; subst hk; exact this)
  obtain ⟨q1, q2⟩ := h1.log
  refine ⟨d', x', v', l', g', o, e, h1, ⟨t, h3⟩, fun k h => (h5 k h).1, T', I.spl, le_trans I.old q1.length_le, ?_, ?_, ?_, ?_, ?_, ?_, ?_⟩
  · exact I.tab.journal hok hv I.jr (by have := hB.pages; have := I.pages; omega) h1 e
  · intro r hr
    rcases q2 r hr with h | ⟨b, h⟩
    · exact I.fit r h
    · exact (A.client.put r.1 r.2 b (by rw [h]; simp)).2.1
  · have := A.pages; omega
  · exact VarRing.calls (s := ⟨d, x, v⟩) (t := ⟨d', x', v'⟩) ⟨hv.B0, fun h ha p hp => h.write ha p hp, fun h => h.erase⟩ I.ring
      (Calls.ofOpsV [op] _ _ _ _ _ _ _ (Calls.none _) (by simp only [runOpsV, e, Res.ok_bind]))
  · exact le_trans I.keys hQ
  · intro r hr
    rcases q2 r hr with h | ⟨b, h⟩
    · exact lt_of_lt_of_le (I.below r h) hQ
    · rw [h]; exact Nat.lt_succ_self _
  · intro en he
    rw [h3] at he
    rcases List.mem_append.mp he with h | h
    · have h6 := I.first en h
      obtain ⟨r, r1, r2⟩ := I.tab.known en h
      have h7 := I.below r r1
      rw [← h6]
      unfold startPage
      split
      · rename_i k a b
        have := A.new k (by simp [Spec.offeredV])
        have hne : en.key ≠ k := by omega
        show (if en.key = k then (preVar c d v).next else first en.key) = first en.key
        rw [if_neg hne]
      · rfl
    · obtain ⟨a, b, z1, z2, z3⟩ := h3' en h
      rw [z1, z2]
      simp only [startPage, if_true]
      exact z3.symm

/-- The keys on the variable pages. -/
theorem LifeInvW.tops (I : LifeInvW c lo K P R n0 Q first d v l lv low g) : ∀ j, j < v.next → g.ks.getD j 0 < Q := by
  intro j hj
  obtain ⟨z1, z2⟩ := (I.tab.inv.keys trivial).tops
  have := I.keys
  rcases z2 j hj with h | ⟨e, e1, e2⟩
  · simp only at z1 h
    omega
  · obtain ⟨r, r1, r2⟩ := I.tab.known e e1
    have := I.below r r1
    omega

theorem LifeInvW.min_le (hok : c.Ok K) (I : LifeInvW c lo K P R n0 Q first d v l lv low g) : d.min ≤ Spec.recovered c.N c.B d.next := by
  have h1 := I.tab.tab.dropped_max hok.B0 recovered_dvd
  have h2 := I.old
  rw [← I.tab.tab.sim.next] at h1 h2
  rw [h1]
  exact max_le (recovered_mono hok.B0 hok.dvd h2) (dropped_le_recovered _ _ _)

theorem PowerFail.log (hok : c.Ok K) (hv : c.VFile) {D V : Dev} (hf : PowerFail c d x v op D V) : d.dev.log <+: D.log := by
  have hd : ∀ {op d' x' v' o}, stepV c d x v op = .ok (d', x', v', o) → d.dev.log <+: d'.dev.log := by
    intro op d' x' v' o e
    rcases data_step hok hv e with ⟨h, -⟩ | ⟨h, -⟩
    · rw [h]; exact List.prefix_rfl
    · rw [h]
      unfold outDev
      simp only [List.append_assoc]
      exact List.prefix_append _ _
  cases hf with
  | putBefore => exact List.prefix_rfl
  | putData => exact List.prefix_append _ _
  | putAfter k a b j h => exact hd h
  | flushData => exact List.prefix_append _ _
  | flushVar j h => exact hd h
  | get => exact List.prefix_rfl
  | getVar => exact List.prefix_rfl

/-- Power failure during an operation: what is found in the files. -/
theorem LifeInvW.cutAt (hok : c.Ok K) (hv : c.VFile) (hid : c.eraseFx = id) (hB : Bounds c lo K P) (h127 : c.maxRec ≤ 127)
    (I : LifeInvW c lo K P R n0 Q first d v l lv low g) (A : AllowedW c lo K P Q d v op) (hop : op ≠ .flush) {D V : Dev}
    (hf : PowerFail c d x v op D V) (hspl : (Spec.writes D.log).length ≤ c.N ∨ c.maxErr ≤ 1) (h32 : (Spec.writes V.log).length + 1 < 2 ^ 32)
    (hV : (Spec.writes V.log).length = 1 → ¬ LonePage c V) :
    ∃ pages m s ks, CutAt c lo K P ⟨m, s, ks, g.es⟩ D V pages (Spec.writes V.log).length ∧
      pages = (l.log.pages ++ [l.log.buf]).take (Spec.writes D.log).length ∧ (Spec.writes D.log).length = pages.length ∧
      (∀ r ∈ (Log.mk pages []).all, r ∈ l.log.all) ∧
      (∀ r ∈ (Log.mk pages []).live (Spec.recovered c.N c.B pages.length), r ∈ l.log.live (Spec.recovered c.N c.B R)) ∧
      ∀ j, j < (Spec.writes V.log).length → ks.getD j 0 < Spec.nextKey Q op := by
  obtain ⟨d', x', v', l', g', o, e, h1, h2, -, I'⟩ := I.step hok hv hB (by omega) A x (fun h => absurd h hop)
  obtain ⟨pages, H, hp, hpre⟩ := I.tab.cutIn hok hv hB hid trivial (I.min_le hok) I.jr A.pages I.ring (fun {l0 d' z' v' o} hr e =>
      VarRing.calls (s := ⟨d, x, v⟩) (t := ⟨d', z', v'⟩) (ring_rule hv l0) hr (Calls.ofOpsV [op] _ _ _ _ _ _ _ (Calls.none _) (by
        simp only [runOpsV, e, Res.ok_bind]))) (fun k a b h => A.wrap) hop hf e I'.tab h2 hspl h32 hV
  have hlen : (Spec.writes D.log).length = pages.length := by
    obtain ⟨dj, j1, J⟩ := H.jr
    rw [← j1, ← wrote_length, J.count]
  have hge : l.log.pages.length ≤ pages.length := by
    have h0 := (writes_prefix (hf.log hok hv)).length_le
    rw [← wrote_length, I.jr.count] at h0
    omega
  have hall : ∀ r ∈ (Log.mk pages []).all, r ∈ l.log.all := by
    intro r hr
    unfold Log.all at hr ⊢
    rw [List.append_nil, hp] at hr
    obtain ⟨p, p1, p2⟩ := List.mem_flatten.mp hr
    rcases List.mem_append.mp (List.mem_of_mem_take p1) with p1 | p1
    · exact List.mem_append_left _ (List.mem_flatten.mpr ⟨p, p1, p2⟩)
    · rw [List.mem_singleton] at p1
      exact List.mem_append_right _ (p1 ▸ p2)
  have hn : (Spec.writes V.log).length ≤ v'.next := by
    rw [← I'.ring.2.count]
    exact (writes_prefix hpre).length_le
  have hlive : ∀ r ∈ (Log.mk pages []).live (Spec.recovered c.N c.B pages.length), r ∈ l.log.live (Spec.recovered c.N c.B R) := by
    intro r hr
    have hm := recovered_mono (N := c.N) (B := c.B) hok.B0 hok.dvd (le_trans I.old hge)
    rcases mem_live.mp hr with ⟨i, i1, i2, i3⟩ | h
    · refine mem_live.mpr ?_
      simp only at i1 i2 i3
      by_cases hi : i < l.log.pages.length
      · refine Or.inl ⟨i, hi, by omega, ?_⟩
        have he : pages[i] = l.log.pages[i] := by
          simp only [hp, List.getElem_take]
          rw [List.getElem_append_left hi]
        rw [← he]; exact i3
      · right
        have hi2 : i = l.log.pages.length := by
          have := congrArg List.length hp
          rw [List.length_take, List.length_append, List.length_singleton] at this
          omega
        have he : pages[i] = l.log.buf := by
          simp only [hp, List.getElem_take, hi2]
          simp
        rw [← he]; exact i3
    · cases h
  exact ⟨pages, g'.vmin, g'.s, g'.ks, H, hp, hlen, hall, hlive, fun j hj => I'.tops j (by omega)⟩

/-- Power failure during an operation, and reopening. -/
theorem LifeInvW.cut (hok : c.Ok K) (hv : c.VFile) (hid : c.eraseFx = id) (hB : Bounds c lo K P) (h127 : c.maxRec ≤ 127) (hN32 : c.N < 2 ^ 32)
    (I : LifeInvW c lo K P R n0 Q first d v l lv low g) (A : AllowedW c lo K P Q d v op) (hop : op ≠ .flush) {D V : Dev}
    (hf : PowerFail c d x v op D V) (hspl : (Spec.writes D.log).length ≤ c.N ∨ c.maxErr ≤ 1) (h32 : (Spec.writes V.log).length + 1 < 2 ^ 32)
    (hV : (Spec.writes V.log).length = 1 → ¬ LonePage c V) (rb vrb : Page) (sm : Nat → Nat × Nat) (hvf : Bool) :
    ∃ d'' v'' g'', reopenV c D V rb sm vrb hvf = (d'', v'', 0) ∧ VSync v'' ∧
      LifeInvW c lo K P (Spec.writes D.log).length v''.next (Spec.nextKey Q op) first d'' v''
        ⟨⟨(l.log.pages ++ [l.log.buf]).take (Spec.writes D.log).length, []⟩, l.var⟩ (Spec.nextKey Q op) (Spec.nextKey Q op) g'' := by
  have hQ := A.next
  obtain ⟨pages, m, s, ks, H, hp, hlen, hall, hlive, htops⟩ := I.cutAt hok hv hid hB h127 A hop hf hspl h32 hV
  rw [← hp, hlen]
  obtain ⟨d1, v1, w, r1, r2, r3, r4, r5⟩ := H.reopened hok hv hB h127 hN32 hid rb vrb sm hvf
  obtain ⟨z1, z2, z3⟩ := H.table (Q := Spec.nextKey Q op) hv hid hB.key (fun r hr => I.fit r (hall r hr))
    (fun r hr => lt_of_lt_of_le (I.below r (hall r hr)) hQ) htops I.tab.vars
    (fun r hr => I.tab.novar r (hlive r hr)) r3 r2 r4 r5
  refine ⟨d1, v1, _, r1, r5.sync, z3, ?_, le_refl _, ?_, fun r hr => I.fit r (hall r hr), ?_, z2, le_refl _,
    fun r hr => lt_of_lt_of_le (I.below r (hall r hr)) hQ, ?_⟩
  · rcases hspl with h | h
    · exact Or.inl (recovered_small (by omega))
    · exact Or.inr h
  · obtain ⟨dj, j1, J⟩ := H.jr
    exact J.congr (r3.trans j1.symm)
  · have := H.fewer
    omega
  · intro e he
    exact I.first e (mem_keep.mp he).1

end

end EDB
