import Verif.Proofs.RlcVarLoc
import Verif.Model.RlcVarLife
import Verif.Props.Rlc

/-! Helper lemmas: everything that ever happens to the two files of a table with variable data and record-level consistency. -/

namespace EDB

open Spec (Log Op Out VOp VOut Attempt VAttempt MayHold CutPut KeepsPermanent)

/-- The record is on a page that had to be dropped. -/
def Gone (c : Cfg) (L : Log) (r : Spec.Rec) : Prop := ∃ l, l < Spec.rlcDropped c.N c.B L.pages.length ∧ r ∈ L.pages.getD l []

/-- Pages are only ever added. -/
def Ext (L L' : Log) : Prop := ∃ t, L'.pages = L.pages ++ t

/-- The attempts, without the variable data. -/
abbrev dataOf (H : List VAttempt) : List Attempt := H.map VAttempt.data

/-- What the two files have to do with the attempts: `T` the locations ever stored with keys, `es` data that is in the variable
data file. -/
structure RV (c : Cfg) (lo K P : Nat) (H : List VAttempt) (L : Log) (T : Locs) (es : List Ent) (f : Nat → Option Page) : Prop where
  hold : MayHold c.maxRec (dataOf H) L
  asc : T.Pairwise (fun x y => x.1 < y.1)
  keys : ∀ x ∈ T, ∃ r ∈ Spec.tried (dataOf H), r.1 = x.1
  bnd : ∀ r ∈ Spec.tried (dataOf H), lo ≤ r.1 ∧ r.1 + 1 < K
  dev : LocDev c P T f
  ents : ∀ e ∈ es, (e.key, vaddr c e.a % (c.numVar * c.pageSize)) ∈ T
  vars : ∀ k a b, (k, a, some b) ∈ Spec.ackedV H → (∃ e ∈ es, e.key = k ∧ e.bs = b) ∨ Gone c L (k, a)
  novar : ∀ k a, (k, a, none) ∈ Spec.ackedV H → (k, noVar) ∈ T

/-- The library is in use. -/
structure OnV (c : Cfg) (lo K P : Nat) (H : List VAttempt) (d : Data) (v : Var) (L : Log) (ps : List Page) (fr : Nat) (t : Option Page)
    (T : Locs) (g : Gh) (lo' : Nat) : Prop where
  tab : RTab c lo K P ps fr t d L
  kept : RlcKept c P L d.dev
  rv : RV c lo K P H L T g.es d.dev.file
  wbuf : Locd c T d.wbuf
  inv : VInv c False lo' K g v
  disk : VDisk c g.es g.s v.next v.dev.file
  any : 0 < v.next → L.all ≠ []
  low : ∀ k, lo ≤ k → (∀ r ∈ Spec.tried (dataOf H), r.1 < k) → lo' ≤ k

/-- Power is off. -/
structure OffV (c : Cfg) (lo K P : Nat) (H : List VAttempt) (D V : Dev) (L : Log) (T : Locs) (es : List Ent) (s : List Byte) (w : Nat) : Prop where
  stored : StoredR c P L D.file
  ord : OrderedLog c lo K L
  kept : RlcKept c P L D
  rv : RV c lo K P H L T es D.file
  disk : VDisk c es s w V.file
  any : 0 < w → L.all ≠ []

def OnInv (c : Cfg) (lo K P : Nat) (H : List VAttempt) (d : Data) (v : Var) : Prop :=
  ∃ L ps fr t T g lo', OnV c lo K P H d v L ps fr t T g lo'

def OffInv (c : Cfg) (lo K P : Nat) (H : List VAttempt) (D V : Dev) : Prop := ∃ L T es s w, OffV c lo K P H D V L T es s w

/-- See `RlcV`. -/
def RlcVInv (c : Cfg) (lo K P : Nat) (H : List VAttempt) : VMachine → Prop
  | .on d v => OnInv c lo K P H d v
  | .off D V => OffInv c lo K P H D V

section
variable {c : Cfg} {lo K P fr lo' : Nat} {ps : List Page} {t : Option Page} {H : List VAttempt} {L L' : Log} {d d' : Data} {v v' : Var}
  {T : Locs} {g : Gh} {es es' : List Ent} {f f' : Nat → Option Page}

/-! ### Attempts -/

theorem ackedV_append (H G : List VAttempt) : Spec.ackedV (H ++ G) = Spec.ackedV H ++ Spec.ackedV G := by
  induction H with
  | nil => rfl
  | cons h t ih => cases h <;> simp [Spec.ackedV, ih]

theorem ackedV_acked {k : Nat} {a : List Byte} {b : Option (List Byte)} (h : (k, a, b) ∈ Spec.ackedV H) : (k, a) ∈ Spec.acked (dataOf H) := by
  induction H with
  | nil => cases h
  | cons x t ih =>
    cases x with
    | put k' a' b' =>
      simp only [Spec.ackedV, List.mem_cons, Prod.mk.injEq] at h
      simp only [dataOf, List.map_cons, VAttempt.data, Spec.acked, List.mem_cons, Prod.mk.injEq]
      rcases h with ⟨h1, h2, -⟩ | h
      · exact Or.inl ⟨h1, h2⟩
      · exact Or.inr (ih h)
    | flush => exact ih h
    | putCut k' a' b' => exact ih h
    | flushCut => exact ih h

theorem ackedV_tried {k : Nat} {a : List Byte} {b : Option (List Byte)} (h : (k, a, b) ∈ Spec.ackedV H) : (k, a) ∈ Spec.tried (dataOf H) := by
  induction H with
  | nil => cases h
  | cons x t ih =>
    cases x with
    | put k' a' b' =>
      simp only [Spec.ackedV, List.mem_cons, Prod.mk.injEq] at h
      simp only [dataOf, List.map_cons, VAttempt.data, Spec.tried, List.mem_cons, Prod.mk.injEq]
      rcases h with ⟨h1, h2, -⟩ | h
      · exact Or.inl ⟨h1, h2⟩
      · exact Or.inr (ih h)
    | flush => exact ih h
    | putCut k' a' b' => exact List.mem_cons_of_mem _ (ih h)
    | flushCut => exact ih h

theorem dataOf_append (H : List VAttempt) (x : VAttempt) : dataOf (H ++ [x]) = dataOf H ++ [x.data] := by simp [dataOf]

theorem tried_snoc (H : List VAttempt) (x : VAttempt) : Spec.tried (dataOf (H ++ [x])) = Spec.tried (dataOf H) ++ Spec.tried [x.data] := by
  rw [dataOf_append, tried_append]

/-! ### Dropped pages -/

theorem rlcDropped_mono (N B : Nat) {n m : Nat} (h : n ≤ m) : Spec.rlcDropped N B n ≤ Spec.rlcDropped N B m := by
  unfold Spec.rlcDropped
  have h1 : n / B ≤ m / B := Nat.div_le_div_right h
  have h2 := Nat.mul_le_mul_right B (show n / B + 3 ≤ m / B + 3 by omega)
  omega

theorem Gone.ext {r : Spec.Rec} (h : Gone c L r) (e : Ext L L') : Gone c L' r := by
  obtain ⟨l, h1, h2⟩ := h
  obtain ⟨t, ht⟩ := e
  have hl : l < L.pages.length := by
    by_contra hn
    rw [List.getD_eq_getElem?_getD, List.getElem?_eq_none (by omega)] at h2
    cases h2
  have := rlcDropped_mono c.N c.B (n := L.pages.length) (m := L'.pages.length) (by rw [ht, List.length_append]; omega)
  refine ⟨l, by omega, ?_⟩
  rw [ht]
  simp only [List.getD_eq_getElem?_getD] at h2 ⊢
  rw [List.getElem?_append_left hl]
  exact h2

theorem Ext.refl (L : Log) : Ext L L := ⟨[], by simp⟩

theorem Ext.put (L : Log) (cap : Nat) (r : Spec.Rec) : Ext L (L.put cap r) := by
  unfold Log.put
  split_ifs
  · exact ⟨_, rfl⟩
  · exact ⟨[], by simp⟩

theorem Ext.flush (L : Log) : Ext L L.flush := by
  unfold Log.flush
  split_ifs
  · exact Ext.refl L
  · exact ⟨_, rfl⟩

theorem Ext.cutPut {cap : Nat} {r : Spec.Rec} (h : CutPut cap L r L') : Ext L L' := by
  cases h with
  | before => exact Ext.refl L
  | full h => exact ⟨_, rfl⟩
  | after => exact Ext.put L cap r

theorem cutPut_any {cap : Nat} {r : Spec.Rec} (h : CutPut cap L r L') (hL : L.all ≠ []) : L'.all ≠ [] := by
  cases h with
  | before => exact hL
  | full h =>
    have ha : (⟨L.pages ++ [L.buf], []⟩ : Log).all = L.all := by simp [Log.all]
    rw [ha]; exact hL
  | after => rw [Log_put_all]; simp

/-- A record that is not retained. -/
theorem gone_of {m : Nat} (hm : m = Spec.rlcDropped c.N c.B L.pages.length) {r : Spec.Rec} (h1 : r ∈ L.all) (h2 : r ∉ L.live m) : Gone c L r := by
  unfold Gone
  rw [← hm]
  unfold Log.all at h1
  rw [mem_live] at h2
  rcases List.mem_append.mp h1 with h | h
  · obtain ⟨pg, p1, p2⟩ := List.mem_flatten.mp h
    obtain ⟨l, hl, hpl⟩ := List.getElem_of_mem p1
    refine ⟨l, ?_, by rw [List.getD_eq_getElem?_getD, List.getElem?_eq_getElem hl, hpl]; exact p2⟩
    by_contra hge
    exact h2 (Or.inl ⟨l, hl, by omega, by rw [hpl]; exact p2⟩)
  · exact absurd (Or.inr h) h2

/-! ### Steps -/

theorem RV.dev' (R : RV c lo K P H L T es f) (h : LocDev c P T f') : RV c lo K P H L T es f' :=
  ⟨R.hold, R.asc, R.keys, R.bnd, h, R.ents, R.vars, R.novar⟩

/-- An attempt that offers no record. -/
theorem RV.quiet (R : RV c lo K P H L T es f) {x : VAttempt} (h1 : Spec.tried [x.data] = []) (h2 : Spec.ackedV [x] = [])
    (hM : MayHold c.maxRec (dataOf (H ++ [x])) L') (he : Ext L L') (hd : LocDev c P T f') : RV c lo K P (H ++ [x]) L' T es f' := by
  have ht : Spec.tried (dataOf (H ++ [x])) = Spec.tried (dataOf H) := by rw [tried_snoc, h1, List.append_nil]
  have ha : Spec.ackedV (H ++ [x]) = Spec.ackedV H := by rw [ackedV_append, h2, List.append_nil]
  exact ⟨hM, R.asc, by rw [ht]; exact R.keys, by rw [ht]; exact R.bnd, hd, R.ents,
    fun k a b h => (R.vars k a b (by rw [← ha]; exact h)).imp_right (·.ext he), fun k a h => R.novar k a (by rw [← ha]; exact h)⟩

/-- An attempt to insert a record, which got the location `loc`. -/
theorem RV.more (R : RV c lo K P H L T es f) {x : VAttempt} {k loc : Nat} {a : List Byte} (hx : Spec.tried [x.data] = [(k, a)])
    (hlo : lo ≤ k) (hK : k + 1 < K) (hlt : ∀ r ∈ Spec.tried (dataOf H), r.1 < k)
    (hM : MayHold c.maxRec (dataOf (H ++ [x])) L') (he : Ext L L') (hd : LocDev c P (T ++ [(k, loc)]) f')
    (hsub : ∀ e ∈ es, e ∈ es') (hnew : ∀ e ∈ es', e ∈ es ∨ (e.key = k ∧ vaddr c e.a % (c.numVar * c.pageSize) = loc))
    (hs : ∀ k' a' b, (k', a', some b) ∈ Spec.ackedV [x] → ∃ e ∈ es', e.key = k' ∧ e.bs = b)
    (hn : ∀ k' a', (k', a', none) ∈ Spec.ackedV [x] → (k', noVar) ∈ T ++ [(k, loc)]) :
    RV c lo K P (H ++ [x]) L' (T ++ [(k, loc)]) es' f' := by
  have ht : Spec.tried (dataOf (H ++ [x])) = Spec.tried (dataOf H) ++ [(k, a)] := by rw [tried_snoc, hx]
  refine ⟨hM, ?_, ?_, ?_, hd, ?_, ?_, ?_⟩
  · rw [List.pairwise_append]
    refine ⟨R.asc, List.pairwise_singleton _ _, ?_⟩
    intro y hy z hz
    rw [List.mem_singleton.mp hz]
    obtain ⟨r, r1, r2⟩ := R.keys y hy
    rw [← r2]; exact hlt r r1
  · intro y hy
    rw [ht]
    rcases List.mem_append.mp hy with h | h
    · obtain ⟨r, r1, r2⟩ := R.keys y h
      exact ⟨r, List.mem_append_left _ r1, r2⟩
    · rw [List.mem_singleton.mp h]
      exact ⟨(k, a), by simp, rfl⟩
  · intro r hr
    rw [ht] at hr
    rcases List.mem_append.mp hr with h | h
    · exact R.bnd r h
    · rw [List.mem_singleton.mp h]; exact ⟨hlo, hK⟩
  · intro e hh
    rcases hnew e hh with h | ⟨h1, h2⟩
    · exact List.mem_append_left _ (R.ents e h)
    · rw [h1, h2]; simp
  · intro k' a' b h
    rw [ackedV_append] at h
    rcases List.mem_append.mp h with h | h
    · rcases R.vars k' a' b h with ⟨e, e1, e2⟩ | h
      · exact Or.inl ⟨e, hsub e e1, e2⟩
      · exact Or.inr (h.ext he)
    · exact Or.inl (hs k' a' b h)
  · intro k' a' h
    rw [ackedV_append] at h
    rcases List.mem_append.mp h with h | h
    · exact List.mem_append_left _ (R.novar k' a' h)
    · exact hn k' a' h

theorem OnV.rest (hv : c.VOk) (h : OnV c lo K P H d v L ps fr t T g lo') : v.loc % c.pageSize = c.vhdr := h.inv.rest hv h.disk.len

theorem OnV.sync (hv : c.VOk) (h : OnV c lo K P H d v L ps fr t T g lo') : VSync v := h.inv.sync hv (h.inv.wrap.resolve_right id)

theorem OnV.reads (h : OnV c lo K P H d v L ps fr t T g lo') (E : SameButCache d d') (hs : VSame v v') (hy : VSync v') :
    OnV c lo K P H d' v' L ps fr t T g lo' where
  tab := h.tab.congr E
  kept := h.kept.same E
  rv := by rw [E.dev]; exact h.rv
  wbuf := by rw [E.wbuf]; exact h.wbuf
  inv := h.inv.recache hs hy
  disk := by rw [hs]; exact h.disk
  any := by rw [hs]; exact h.any
  low := h.low

theorem OnV.off (h : OnV c lo K P H d v L ps fr t T g lo') : OffV c lo K P H d.dev v.dev L T g.es g.s v.next :=
  ⟨h.tab.img.storedR h.tab.pages h.tab.tmp, h.tab.ordered, h.kept, h.rv, h.disk, h.any⟩

/-- Power fails in an insert before anything is written. -/
theorem OffV.cutBefore {D V D' V' : Dev} {s : List Byte} {w : Nat} (h : OffV c lo K P H D V L T es s w) {k : Nat} {a : List Byte} {b : Option (List Byte)}
    (hlo : lo ≤ k) (hK : k + 1 < K) (hlt : ∀ r ∈ Spec.tried (dataOf H), r.1 < k) (h1 : D'.file = D.file) (h2 : D'.log = D.log)
    (h3 : V'.file = V.file) : OffV c lo K P (H ++ [.putCut k a b]) D' V' L (T ++ [(k, 0)]) es s w where
  stored := by rw [h1]; exact h.stored
  ord := h.ord
  kept := ⟨by rw [h1, h2]; exact h.kept.image, by rw [h2]; exact h.kept.keeps, by rw [h2]; exact h.kept.writes⟩
  rv := by
    rw [h1]
    refine h.rv.more (a := a) rfl hlo hK hlt (by rw [dataOf_append]; exact h.rv.hold.putCut (k, a) .before) (Ext.refl L)
      (h.rv.dev.mono fun x hx => List.mem_append_left _ hx) (fun e he => he) (fun e he => Or.inl he) (fun k' a' b h => by cases h) (fun k' a' h => by cases h)
  disk := by rw [h3]; exact h.disk
  any := h.any

theorem locd_put (hok : RlcOk c K P) (hv : c.VOk) (hK : K ≤ 256 ^ c.keySize) (h : Locd c T d.wbuf) {evs : List Ev} {k loc : Nat} {a : List Byte}
    (hk : k < K) (ha : a.length = c.dataSize) (hl : loc < 2 ^ 32) (p : PutPages c d d' evs 0 k a loc) : Locd c (T ++ [(k, loc)]) d'.wbuf := by
  obtain ⟨q, q1, q2⟩ := p.added rfl
  have h127 := hok.cap127
  refine Locd.same ?_ q1
  rcases q2 with ⟨rfl, q3⟩ | rfl
  · exact h.append hok.layout hv.vdata ha (by omega) hl (by omega)
  · exact (Locd.init c T).append hok.layout hv.vdata ha (by omega) hl (by rw [count_init]; omega)

/-- `embedDBPutVar`, completed or cut off. -/
theorem OnV.put (hok : RlcOk c K P) (hv : c.VOk) (hB : Bounds c lo K P) (h0 : 0 < lo) (h : OnV c lo K P H d v L ps fr t T g lo')
    {k : Nat} {a : List Byte} {b : Option (List Byte)} (ho : OfferV c lo K H v k a b) (hP : d.next + 1 < P) {x x' : Idx} {r : Int}
    (e : putVar c d x v k a b = .ok (d', x', v', r)) :
    (r = 0 → OnInv c lo K P (H ++ [.put k a b]) d' v') ∧ (r ≠ 0 → OnInv c lo K P H d' v') ∧
    (∀ j, OffInv c lo K P (H ++ [.putCut k a b]) (cutFrom c d.dev d'.dev j) v.dev) ∧
    ∀ j, OffInv c lo K P (H ++ [.putCut k a b]) d'.dev (cutFrom c v.dev v'.dev j) := by
  obtain ⟨o1, o2, o3, o4, o5⟩ := ho
  have hKk := hB.key
  have hrest := h.rest hv
  have hgt : ∀ r ∈ L.all, r.1 < k := fun r hr => o4 r (mayHold_tried h.rv.hold r hr)
  have hpos : 0 < c.numVar * c.pageSize := Nat.mul_pos hv.nv (by have := hv.page; omega)
  obtain ⟨v1, hv1⟩ : ∃ v1 : Var, v1 = { v with hasVar := b.isSome } := ⟨_, rfl⟩
  have I1 : VInv c False lo' K g v1 := by rw [hv1]; exact h.inv.flag _
  have D1 : VDisk c g.es g.s v1.next v1.dev.file := by rw [hv1]; exact h.disk
  have hloc : varLoc c v1 < 2 ^ 32 := by
    have := hv.mem
    have := Nat.mod_lt v1.loc hpos
    unfold varLoc
    split_ifs
    · omega
    · unfold noVar; omega
  obtain ⟨d1, r1, w1, evs, p1, p2, p3, p4⟩ := h.tab.putL hok hB (varLoc c v1) o1 (by omega) o3 hgt hP
  have e1 := putVar_rest hv hok.on hrest d x k a b (by rw [← hv1]; exact p1)
  rw [← hv1, e] at e1
  have hdev1 : v1.dev = v.dev := by rw [hv1]
  have hsub : ∀ y ∈ T, y ∈ T ++ [(k, varLoc c v1)] := fun y hy => List.mem_append_left _ hy
  -- the data part
  have hw : ∀ ph q, Ev.write ph q ∈ evs → Locd c (T ++ [(k, varLoc c v1)]) q := by
    intro ph q hq
    rcases p3 with ⟨rfl, -⟩ | ⟨-, p5, -⟩
    · rcases p4.wrote ph q hq with s | s
      · exact (h.wbuf.mono hsub).same s
      · exact (locd_put hok hv hKk h.wbuf (by omega) o3 hloc p4).same s
    · rw [p5] at hq; cases hq
  have hdev := h.rv.dev.mono hsub
  have cutD : ∀ j, OffInv c lo K P (H ++ [.putCut k a b]) (cutFrom c d.dev d1.dev j) v.dev := by
    intro j
    obtain ⟨L1, c1, c2, c3, c4⟩ : ∃ L1, CutPut c.maxRec L (k, a) L1 ∧ StoredR c P L1 (cutFrom c d.dev d1.dev j).file ∧
        RlcKept c P L1 (cutFrom c d.dev d1.dev j) ∧ OrderedLog c lo K L1 := by
      rcases p3 with ⟨-, ⟨ps', fr', t', T'⟩, TR⟩ | ⟨-, p5, T'⟩
      · obtain ⟨L1, c1, c2, c3⟩ := h.kept.cutF hok.eraser TR p2 j
        exact ⟨L1, c1, c2, c3, h.tab.ordered.cutPut hok.cap T'.ordered c1⟩
      · have TR : Trail c P (· = L) L d.dev.file evs L d.dev.file := by
          rw [p5]
          exact .nil rfl h.off.stored
        obtain ⟨L1, c1, c2, c3⟩ := h.kept.cutF hok.eraser TR p2 j
        subst c1
        exact ⟨L1, .before, c2, c3, h.tab.ordered⟩
    refine ⟨L1, T ++ [(k, varLoc c v1)], g.es, g.s, v.next, c2, c4, c3, ?_, h.disk, fun hn => cutPut_any c1 (h.any hn)⟩
    exact h.rv.more (a := a) rfl o1 o2 o4 (by rw [dataOf_append]; exact h.rv.hold.putCut (k, a) c1) (Ext.cutPut c1)
      (hdev.cutF hok.eraser hw p2 j) (fun e he => he) (fun e he => Or.inl he) (fun k' a' b h => by cases h) (fun k' a' h => by cases h)
  have hdev' : LocDev c P (T ++ [(k, varLoc c v1)]) d1.dev.file := by rw [p2]; exact hdev.devRun hok.eraser hw
  -- the data part done, power fails
  have offD : r1 = 0 → ∀ (V : Dev) (s : List Byte) (w : Nat), VDisk c g.es s w V.file →
      OffInv c lo K P (H ++ [.putCut k a b]) d1.dev V := by
    intro hr V s w hD
    rcases p3 with ⟨-, ⟨ps', fr', t', T'⟩, TR⟩ | ⟨p5, -⟩
    · refine ⟨_, T ++ [(k, varLoc c v1)], g.es, s, w, T'.img.storedR T'.pages T'.tmp, T'.ordered, by rw [p2]; exact h.kept.run hok.eraser TR, ?_,
        hD, fun _ => by rw [Log_put_all]; simp⟩
      exact h.rv.more (a := a) rfl o1 o2 o4 (by rw [dataOf_append]; exact h.rv.hold.putCut (k, a) .after) (Ext.put L _ _)
        hdev' (fun e he => he) (fun e he => Or.inl he) (fun k' a' b h => by cases h) (fun k' a' h => by cases h)
    · exact absurd hr p5
  -- the table goes on
  have onD : r1 = 0 → ∀ (u : Var) (gu : Gh), VInv c False lo' K gu u → VDisk c gu.es gu.s u.next u.dev.file → (∀ e ∈ g.es, e ∈ gu.es) →
      (∀ e ∈ gu.es, e ∈ g.es ∨ (e.key = k ∧ vaddr c e.a % (c.numVar * c.pageSize) = varLoc c v1)) →
      (∀ bs, b = some bs → ∃ e ∈ gu.es, e.key = k ∧ e.bs = bs) → OnInv c lo K P (H ++ [.put k a b]) d1 u := by
    intro hr u gu Iu Du h1 h2 h3
    subst hr
    rcases p3 with ⟨-, ⟨ps', fr', t', T'⟩, TR⟩ | ⟨p5, -⟩
    · refine ⟨_, ps', fr', t', T ++ [(k, varLoc c v1)], gu, lo', T', by rw [p2]; exact h.kept.run hok.eraser TR, ?_,
        locd_put hok hv hKk h.wbuf (by omega) o3 hloc p4, Iu, Du, fun _ => by rw [Log_put_all]; simp, ?_⟩
      · refine h.rv.more (a := a) rfl o1 o2 o4 (by rw [dataOf_append]; exact h.rv.hold.put (k, a)) (Ext.put L _ _) hdev' h1 h2 ?_ ?_
        · intro k' a' bs hm
          simp only [Spec.ackedV, List.mem_singleton, Prod.mk.injEq] at hm
          obtain ⟨m1, -, m2⟩ := hm
          rw [m1]
          exact h3 bs m2.symm
        · intro k' a' hm
          simp only [Spec.ackedV, List.mem_singleton, Prod.mk.injEq] at hm
          obtain ⟨m1, -, m2⟩ := hm
          have : varLoc c v1 = noVar := by
            unfold varLoc
            rw [hv1, ← m2]
            rfl
          rw [m1, this]; simp
      · intro k' hk' hh
        refine h.low k' hk' (fun r hr => hh r ?_)
        rw [tried_snoc]
        exact List.mem_append_left _ hr
    · exact absurd rfl p5
  -- refused
  have onR : r1 ≠ 0 → OnInv c lo K P H d1 v1 := by
    intro hr
    rcases p3 with ⟨p5, -⟩ | ⟨-, p5, T'⟩
    · exact absurd p5 hr
    · have hd : d1.dev = d.dev := by rw [p2, p5, devRun_nil]
      refine ⟨L, ps, fr, t, T, g, lo', T', by rw [hd]; exact h.kept, by rw [hd]; exact h.rv, by rw [p4.kept hr]; exact h.wbuf, I1, D1, ?_, h.low⟩
      rw [hv1]; exact h.any
  have offR : r1 ≠ 0 → ∀ V : Dev, V.file = v.dev.file → OffInv c lo K P (H ++ [.putCut k a b]) d1.dev V := by
    intro hr V hV
    rcases p3 with ⟨p5, -⟩ | ⟨-, p5, T'⟩
    · exact absurd p5 hr
    · have hd : d1.dev = d.dev := by rw [p2, p5, devRun_nil]
      rw [hd]
      exact ⟨_, _, _, _, _, h.off.cutBefore o1 o2 o4 rfl rfl hV⟩
  have same : ∀ j, (cutFrom c v.dev v1.dev j).file = v.dev.file := fun j => (cutFrom_same v.dev hdev1 j).1
  cases b with
  | none =>
    simp only [restPut, Res.ok.injEq, Prod.mk.injEq] at e1
    obtain ⟨rfl, rfl, rfl, rfl⟩ := e1
    refine ⟨fun hr => onD hr _ g I1 D1 (fun e he => he) (fun e he => Or.inl he) (fun bs hb => by cases hb), onR, cutD, fun j => ?_⟩
    by_cases hr : r = 0
    · exact offD hr _ g.s v.next (by rw [same]; exact h.disk)
    · exact offR hr _ (same j)
  | some bs =>
    simp only [restPut] at e1
    by_cases hr : r1 ≠ 0
    · rw [if_pos hr] at e1
      simp only [Res.ok.injEq, Prod.mk.injEq] at e1
      obtain ⟨rfl, rfl, rfl, rfl⟩ := e1
      exact ⟨fun h => absurd h hr, onR, cutD, fun j => offR hr _ (same j)⟩
    · rw [if_neg hr] at e1
      push Not at hr
      obtain ⟨q1, q2⟩ := o5 bs rfl
      have hn1 : v1.next = v.next := by rw [hv1]
      obtain ⟨v2, v3, g3, s1, s2, s3, s4, s5, s6⟩ := VDisk.store hv hKk I1 D1 (key := k) (bs := bs) (by omega) o2 (h.low k o1 o4) (by
        intro e he
        obtain ⟨r, r1, r2⟩ := h.rv.keys _ (h.rv.ents e he)
        simp only at r2
        rw [← r2]; exact o4 r r1) q1 (by rw [hn1]; exact q2)
      rw [s1, Res.ok_bind] at e1
      simp only [Res.ok.injEq, Prod.mk.injEq, s2] at e1
      obtain ⟨rfl, rfl, rfl, rfl⟩ := e1
      refine ⟨fun _ => onD hr _ g3 s3 s4 ?_ ?_ ?_, fun hh => absurd rfl hh, cutD, fun j => ?_⟩
      · intro e he; rw [s5]; exact List.mem_append_left _ he
      · intro e he
        rw [s5] at he
        rcases List.mem_append.mp he with hh | hh
        · exact Or.inl hh
        · right
          rw [List.mem_singleton.mp hh]
          refine ⟨rfl, ?_⟩
          have hcap := hv.cap4
          have hl := D1.len
          show vaddr c g.s.length % _ = _
          unfold varLoc
          rw [hv1]
          simp only [Option.isSome_some, if_true]
          rw [h.inv.sim.loc.mod]
          congr 1
          rw [hl, hn1]
          unfold vaddr
          rw [Nat.mul_mod_left, Nat.mul_div_cancel _ (by omega), Nat.sub_self]
      · intro bs' hb
        cases hb
        exact ⟨newEnt g k bs, by rw [s5]; simp, rfl, rfl⟩
      · obtain ⟨s, w, hD⟩ := s6 j
        rw [hdev1] at hD
        exact offD hr _ s w hD

/-- `embedDBFlush`, completed or cut off. -/
theorem OnV.flush (hok : RlcOk c K P) (hv : c.VOk) (hB : Bounds c lo K P) (h : OnV c lo K P H d v L ps fr t T g lo')
    (hf : FlushOk c d) (hP : d.next + 1 < P) {x x' : Idx} {r : Int} (e : flushV c d x v = .ok (d', x', v', r)) :
    v' = v ∧ OnInv c lo K P (H ++ [.flush]) d' v ∧ (∀ j, OffInv c lo K P (H ++ [.flushCut]) (cutFrom c d.dev d'.dev j) v.dev) ∧
    OffInv c lo K P (H ++ [.flushCut]) d'.dev v.dev := by
  obtain ⟨d1, w1, evs, p1, p2, ⟨ps', fr', t', T'⟩, TR, p3, p4⟩ := h.tab.flushL hok hB hf hP
  rw [flushV_rest hv (h.rest hv) d x p1] at e
  simp only [Res.ok.injEq, Prod.mk.injEq] at e
  obtain ⟨rfl, rfl, rfl, -⟩ := e
  have hw : ∀ ph q, Ev.write ph q ∈ evs → Locd c T q := fun ph q hq => h.wbuf.same (p3 ph q hq)
  have hdev' : LocDev c P T d1.dev.file := by rw [p2]; exact h.rv.dev.devRun hok.eraser hw
  have hk : RlcKept c P L.flush d1.dev := by rw [p2]; exact h.kept.run hok.eraser TR
  refine ⟨rfl, ⟨_, ps', fr', t', T, g, lo', T', hk, ?_, ?_, h.inv, h.disk, fun hn => by rw [Log_flush_all]; exact h.any hn, ?_⟩, ?_, ?_⟩
  · exact h.rv.quiet rfl rfl (by rw [dataOf_append]; exact h.rv.hold.flush) (Ext.flush L) hdev'
  · rcases p4 with p4 | p4
    · rw [p4]; exact h.wbuf
    · rw [p4]; exact Locd.init c T
  · intro k' hk' hh
    refine h.low k' hk' (fun r hr => hh r ?_)
    rw [tried_snoc]
    exact List.mem_append_left _ hr
  · intro j
    obtain ⟨L1, c1, c2, c3⟩ := h.kept.cutF hok.eraser TR p2 j
    refine ⟨L1, T, g.es, g.s, v.next, c2, ?_, c3, ?_, h.disk, ?_⟩
    · rcases c1 with c1 | c1
      · rw [c1]; exact h.tab.ordered
      · rw [c1]; exact T'.ordered
    · refine h.rv.quiet rfl rfl (by rw [dataOf_append]; exact h.rv.hold.flushCut c1) ?_ (h.rv.dev.cutF hok.eraser hw p2 j)
      rcases c1 with c1 | c1
      · rw [c1]; exact Ext.refl L
      · rw [c1]; exact Ext.flush L
    · intro hn
      rcases c1 with c1 | c1
      · rw [c1]; exact h.any hn
      · rw [c1, Log_flush_all]; exact h.any hn
  · refine ⟨L.flush, T, g.es, g.s, v.next, T'.img.storedR T'.pages T'.tmp, T'.ordered, hk, ?_, h.disk, fun hn => by rw [Log_flush_all]; exact h.any hn⟩
    exact h.rv.quiet rfl rfl (by rw [dataOf_append]; exact h.rv.hold.flushCut (Or.inr rfl)) (Ext.flush L) hdev'

/-! ### Opening the files again -/

/-- The smallest key with data: the first one retained. -/
theorem minRec_rlc (hok : RlcOk c K P) (s1 : Sim c lo K d.min (clr d) L) (s2 : 0 < d.next → Sim c lo K d.min d L) (hL : L.all ≠ []) :
    ∃ r0 rest d2, L.live d.min = r0 :: rest ∧ SameButCache d d2 ∧ (0 < d2.next → Sim c lo K d2.min d2 L) ∧
      ∀ u, pageId u.rbuf = 0 → setMinRec c d u = (d2, { u with minRec := r0.1 }, true) := by
  have hn : d.next = L.pages.length := s1.next
  rcases Nat.eq_zero_or_pos d.next with h0 | h0
  · have hp : L.pages = [] := List.eq_nil_of_length_eq_zero (by omega)
    have hb : recs c d.wbuf = L.buf := s1.buf
    cases hbuf : L.buf with
    | nil => exact absurd (by simp [Log.all, hp, hbuf]) hL
    | cons r0 rest =>
      refine ⟨r0, rest, d, by simp [Log.live, hp, hbuf], ⟨rfl, rfl, rfl, rfl, rfl, rfl, rfl, rfl⟩, s2, ?_⟩
      intro u hu
      unfold setMinRec
      rw [if_pos hu, if_pos ⟨hok.on, h0⟩, pageMinKey_eq (by rw [hb, hbuf])]
  · have S := s2 h0
    have hm := S.live h0
    obtain ⟨d2, e1, e2, e3, -, e5, -, -⟩ := S.readPage hok.geo.N0 (le_refl d.min) hm
    have hlt : d.min < L.pages.length := by omega
    have hg : L.pages.getD d.min [] = L.pages[d.min] := by
      rw [List.getD_eq_getElem?_getD, List.getElem?_eq_getElem hlt]; rfl
    rw [hg] at e5
    have hf := S.full _ (List.getElem_mem hlt)
    cases hp : L.pages[d.min] with
    | nil => exact absurd hp hf
    | cons r0 rest =>
      refine ⟨r0, rest ++ (L.pages.drop (d.min + 1)).flatten ++ L.buf, d2, ?_, e2, fun _ => by rw [e2.min]; exact e3, ?_⟩
      · unfold Log.live
        rw [List.drop_eq_getElem_cons hlt, List.flatten_cons, hp]
        simp
      · intro u hu
        have hnot : ¬ (c.rlc = true ∧ d.next = 0) := by rintro ⟨-, h⟩; omega
        unfold setMinRec
        rw [if_pos hu, if_neg hnot, e1]
        simp only [if_true]
        rw [pageMinKey_eq (c := c) (p := d2.rbuf) (by rw [e5, hp])]

/-- `embedDBInit` on what a power failure left. -/
theorem OffV.reopen (hok : RlcOk c K P) (hv : c.VOk) (hB : Bounds c lo K P) (hP2 : 2 ≤ P) {D V : Dev} {s : List Byte} {w : Nat}
    (h : OffV c lo K P H D V L T es s w) (rb : Page) (sm : Nat → Nat × Nat) (vrb : Page) (hb : Bool) :
    ∃ d' v' ps fr t g lo', reopenV c D V rb sm vrb hb = (d', v', 0) ∧ OnV c lo K P H d' v' L ps fr t T g lo' ∧
      Sim c lo K d'.min (clr d') L ∧ (0 < d'.next → Sim c lo K d'.min d' L) := by
  obtain ⟨d1, evs, ps, fr, t, g1, g2, Tb, TR, s1, s2, hwb, hno⟩ := recover_rlcL hok hB hP2 h.ord h.stored rb sm
  have hKk := hB.key
  have hkept : RlcKept c P L d1.dev := by rw [g2]; exact h.kept.run hok.eraser (TR (fun _ => True) trivial)
  have hdev : LocDev c P T d1.dev.file := by
    rw [g2]
    exact h.rv.dev.devRun hok.eraser (fun ph q hq => absurd hq (hno ph q))
  have hloc : Locd c T d1.wbuf := by
    rw [hwb]
    cases ht : t with
    | none => exact Locd.init c T
    | some p =>
      obtain ⟨-, t2, -, t4, t5, -⟩ := Tb.img.temp p ht
      rcases hdev _ _ t2 with hbl | hl
      · have h127 := hok.cap127
        have := hbl.1
        unfold toInt8 at this
        simp only at this
        rw [Nat.mod_eq_of_lt (show pageCount p < 256 by omega), if_pos (by omega)] at this
        omega
      · exact hl
  have hmin : d1.min = Spec.rlcDropped c.N c.B L.pages.length := by
    have hn : d1.next = L.pages.length := s1.next
    rw [Tb.min, ← hn, rlcDropped_area]
  have hbnd : ∀ e ∈ es, lo ≤ e.key ∧ e.key + 1 < K := by
    intro e he
    obtain ⟨r, r1, r2⟩ := h.rv.keys _ (h.rv.ents e he)
    simp only at r2
    rw [← r2]
    exact h.rv.bnd r r1
  obtain ⟨vo, hvo⟩ : ∃ vo, vo = Var.opening c V vrb hb := ⟨_, rfl⟩
  have hsync : VSync vo := by
    intro ph hph
    rw [hvo] at hph
    simp [Var.opening, Var.fresh] at hph
  have hfile : vo.dev.file = V.file := by rw [hvo]; rfl
  have hre : reopenV c D V rb sm vrb hb = recoverVar c d1 vo := by
    unfold reopenV
    rw [g1, ← hvo]
    simp [hok.on]
  rcases Nat.eq_zero_or_pos w with h0 | h0
  · subst h0
    have hes := h.disk.nil
    have he := recoverVar_empty (c := c) (d := d1) hsync (by rw [hfile]; exact h.disk.plain)
    obtain ⟨ks, I⟩ := h.disk.inv (lo := lo) (K := K) (vn := vo) (by rw [hvo]; rfl) (by rw [hvo]; rfl)
      (by rw [hvo]; show c.vhdr = _; omega) (by rw [hvo]; rfl) hsync hfile (Or.inl ⟨hes, by rw [hvo]; rfl⟩) (fun e he => (hbnd e he).2)
    refine ⟨d1, vo, ps, fr, t, ⟨0, s, ks, es⟩, lo, by rw [hre, he], ⟨Tb, hkept, h.rv.dev' hdev, hloc, I, ?_, ?_, fun k hk _ => hk⟩, s1, s2⟩
    · have : vo.next = 0 := by rw [hvo]; rfl
      rw [this, hfile]; exact h.disk
    · intro hn
      have : vo.next = 0 := by rw [hvo]; rfl
      omega
  · have hL := h.any h0
    obtain ⟨r0, rest, d2, q1, q2, q3, q4⟩ := minRec_rlc hok s1 s2 hL
    obtain ⟨v1, e1, e2, e3⟩ := recoverVar_gen hv h0 h.disk.lt hsync (by rw [hfile]; exact h.disk.plain)
      (fun _ p hp => h.disk.mark p (by rw [← hfile]; exact hp)) q4
    obtain ⟨vn, hvn⟩ : ∃ vn : Var, vn = { v1 with next := w, minRec := r0.1, avail := c.numVar - w, loc := w * c.pageSize + c.vhdr } := ⟨_, rfl⟩
    rw [← hvn] at e1
    have hlive : ∀ r ∈ L.live d1.min, r0.1 ≤ r.1 := by
      have hs := Log_live_sorted h.ord.sorted d1.min
      rw [q1] at hs ⊢
      intro r hr
      rcases List.mem_cons.mp hr with hr | hr
      · rw [hr]
      · exact le_of_lt (List.rel_of_pairwise_cons hs hr)
    have hr0 : r0 ∈ L.all := by
      have : r0 ∈ L.live d1.min := by rw [q1]; simp
      rw [mem_live] at this
      rcases this with ⟨l, hl, -, hr⟩ | hr
      · exact mem_all_page hl hr
      · exact List.mem_append_right _ hr
    have hb0 := h.rv.bnd r0 (mayHold_tried h.rv.hold r0 hr0)
    have hmod : r0.1 % 256 ^ c.keySize = r0.1 := Nat.mod_eq_of_lt (by omega)
    have hvn1 : vn.minRec = r0.1 := by rw [hvn]
    have hdv : v1.dev = vo.dev := by rw [e2]
    have hdvn : vn.dev.file = V.file := by rw [hvn]; show v1.dev.file = _; rw [hdv, hfile]
    have hD := h.disk.filter (fun e => decide (r0.1 ≤ e.key))
    obtain ⟨ks, I⟩ := hD.inv (lo := r0.1) (K := K) (vn := vn) (by rw [hvn]) (by rw [hvn]; show v1.wbuf = _; rw [e2, hvo]; rfl)
      (by rw [hvn]) (by rw [hvn]) (by
        rw [hvn]
        intro ph hph
        exact e3 ph hph) hdvn
      (Or.inr ⟨by rw [hvn1, hmod]; exact hb0.2, by rw [hvn1, hmod], by
        intro e he
        rw [hvn1, hmod]
        simpa using (List.mem_filter.mp he).2⟩) (fun e he => (hbnd e (List.mem_filter.mp he).1).2)
    have hmin2 : d2.min = d1.min := q2.min
    refine ⟨d2, vn, ps, fr, t, ⟨0, s, ks, _⟩, r0.1, by rw [hre, e1], ⟨Tb.congr q2, hkept.same q2, ?_, by rw [q2.wbuf]; exact hloc, I, ?_, fun _ => hL, ?_⟩, ?_, q3⟩
    · rw [q2.dev]
      refine ⟨h.rv.hold, h.rv.asc, h.rv.keys, h.rv.bnd, hdev, fun e he => h.rv.ents e (List.mem_filter.mp he).1, ?_, h.rv.novar⟩
      intro k a b hk
      rcases h.rv.vars k a b hk with ⟨e, e1, e2, e3⟩ | hg
      · by_cases hle : r0.1 ≤ k
        · exact Or.inl ⟨e, List.mem_filter.mpr ⟨e1, by rw [e2]; simpa using hle⟩, e2, e3⟩
        · right
          refine gone_of hmin ((mayHold_sound h.rv.hold).1.subset (ackedV_acked hk)) ?_
          intro hm
          have := hlive _ hm
          simp only at this
          omega
      · exact Or.inr hg
    · have : vn.next = w := by rw [hvn]
      rw [this, hdvn]
      exact hD
    · intro k _ hk
      exact le_of_lt (hk r0 (mayHold_tried h.rv.hold r0 hr0))
    · rw [hmin2]
      exact s1.clr_congr q2

/-! ### Everything that may ever happen -/

theorem RlcV.inv (hok : RlcOk c K P) (hv : c.VOk) (hB : Bounds c lo K P) (hP2 : 2 ≤ P) (h0 : 0 < lo) {M : VMachine}
    (h : RlcV c lo K P M H) : RlcVInv c lo K P H M := by
  induction h with
  | new rb sm vrb b =>
    have hnv := hv.nv
    have D : VDisk c [] [] 0 (Var.fresh c vrb b).dev.file :=
      ⟨by simp, hnv, fun j hj => (by omega), fun _ _ => rfl, fun p hp => (by simp [Var.fresh] at hp), fun e he => (by cases he), List.Pairwise.nil⟩
    obtain ⟨ks, I⟩ := D.inv (lo := lo) (K := K) (vn := Var.fresh c vrb b) rfl rfl (by show c.vhdr = _; omega) rfl
      (fun ph hph => by simp [Var.fresh] at hph) rfl (Or.inl ⟨rfl, rfl⟩) (fun e he => (by cases he))
    refine ⟨Log.empty, [], 0, none, [], ⟨0, [], ks, []⟩, lo, RTab.fresh hok (by omega) rb sm, ⟨fun _ => Or.inl rfl, fun m hm => hm, fun ph q h => (by simp [Data.fresh] at h)⟩, ?_, Locd.init c [], I, D, ?_, fun k hk _ => hk⟩
    · refine ⟨.nil, List.Pairwise.nil, fun x hx => (by cases hx), fun r hr => (by cases hr), ?_, fun e he => (by cases he), fun k a b h => (by cases h),
        fun k a h => (by cases h)⟩
      intro ph p hp
      simp [Data.fresh] at hp
    · intro hn
      simp [Var.fresh] at hn
  | put h ho hP e ih =>
    obtain ⟨L, ps, fr, t, T, g, lo', I⟩ := ih
    exact (I.put hok hv hB h0 ho hP e).1 rfl
  | refused h ho hP e hr ih =>
    obtain ⟨L, ps, fr, t, T, g, lo', I⟩ := ih
    exact (I.put hok hv hB h0 ho hP e).2.1 hr
  | flush h hf hP e ih =>
    obtain ⟨L, ps, fr, t, T, g, lo', I⟩ := ih
    obtain ⟨rfl, q, -⟩ := I.flush hok hv hB hf hP e
    exact q
  | read h hr e ih =>
    obtain ⟨L, ps, fr, t, T, g, lo', I⟩ := ih
    exact ⟨L, ps, fr, t, T, g, lo', I.reads (read_same hr e) (VSame.refl _) (I.sync hv)⟩
  | getVar h e ih =>
    obtain ⟨L, ps, fr, t, T, g, lo', I⟩ := ih
    obtain ⟨q1, q2, q3⟩ := getVar_reads hv (I.sync hv) (I.rest hv) e
    exact ⟨L, ps, fr, t, T, g, lo', I.reads q1 q2 q3⟩
  | stream h e ih =>
    obtain ⟨L, ps, fr, t, T, g, lo', I⟩ := ih
    obtain ⟨q2, q3⟩ := stream_reads (I.sync hv) e
    exact ⟨L, ps, fr, t, T, g, lo', I.reads ⟨rfl, rfl, rfl, rfl, rfl, rfl, rfl, rfl⟩ q2 q3⟩
  | nextVar h e ih =>
    obtain ⟨L, ps, fr, t, T, g, lo', I⟩ := ih
    obtain ⟨q1, q2, q3⟩ := nextVar_reads hv (I.sync hv) (I.rest hv) e
    exact ⟨L, ps, fr, t, T, g, lo', I.reads q1 q2 q3⟩
  | idle h ih =>
    obtain ⟨L, ps, fr, t, T, g, lo', I⟩ := ih
    exact ⟨_, _, _, _, _, I.off⟩
  | gaps h gp ih =>
    obtain ⟨L, T, es, s, w, I⟩ := ih
    exact ⟨L, T, es, s, w, I.stored.gaps hok.geo gp, I.ord, I.kept.gaps gp, I.rv.dev' (I.rv.dev.gaps gp), I.disk, I.any⟩
  | putCut h ho hP e ih =>
    obtain ⟨L, ps, fr, t, T, g, lo', I⟩ := ih
    have hpre := preVar_rest hv hok.on (I.rest hv)
    have step : ∀ {x x' d' v' o} {d : Data} {v : Var} {k a b}, stepV c d x v (.put k a b) = .ok (d', x', v', o) →
        ∃ r, putVar c d x v k a b = .ok (d', x', v', r) := by
      intro x x' d' v' o d v k a b e
      simp only [stepV] at e
      obtain ⟨⟨d1, x1, v1, r⟩, e1, e2⟩ := Res.bind_eq_ok e
      cases e2
      exact ⟨r, e1⟩
    cases e with
    | putBefore _ _ _ j =>
      refine ⟨_, _, _, _, _, I.off.cutBefore ho.lo ho.hi ho.asc rfl rfl ?_⟩
      exact (cutFrom_same _ (by rw [hpre]) j).1
    | putData _ _ _ j hs =>
      obtain ⟨r, hs⟩ := step hs
      rw [hpre]
      exact (I.put hok hv hB h0 ho hP hs).2.2.1 j
    | putAfter _ _ _ j hs =>
      obtain ⟨r, hs⟩ := step hs
      rw [hpre]
      exact (I.put hok hv hB h0 ho hP hs).2.2.2 j
  | flushCut h hf hP e ih =>
    obtain ⟨L, ps, fr, t, T, g, lo', I⟩ := ih
    have step : ∀ {x x' d' v' o} {d : Data} {v : Var}, stepV c d x v .flush = .ok (d', x', v', o) →
        ∃ r, flushV c d x v = .ok (d', x', v', r) := by
      intro x x' d' v' o d v e
      simp only [stepV] at e
      obtain ⟨⟨d1, x1, v1, r⟩, e1, e2⟩ := Res.bind_eq_ok e
      cases e2
      exact ⟨r, e1⟩
    cases e with
    | flushData j hs =>
      obtain ⟨r, hs⟩ := step hs
      exact (I.flush hok hv hB hf hP hs).2.2.1 j
    | flushVar j hs =>
      obtain ⟨r, hs⟩ := step hs
      obtain ⟨rfl, -, -, L1, T1, es1, s1, w1, q⟩ := I.flush hok hv hB hf hP hs
      refine ⟨L1, T1, es1, s1, w1, q.stored, q.ord, q.kept, q.rv, ?_, q.any⟩
      rw [(cutFrom_same _ rfl j).1]
      exact q.disk
  | getCut h e ih =>
    obtain ⟨L, ps, fr, t, T, g, lo', I⟩ := ih
    cases e with
    | getVar _ j hs =>
      simp only [stepV] at hs
      obtain ⟨⟨d1, v1, r1, o1, st1⟩, e1, e2⟩ := Res.bind_eq_ok hs
      obtain ⟨⟨v2, b2⟩, e3, e4⟩ := Res.bind_eq_ok e2
      simp only [Res.ok.injEq, Prod.mk.injEq] at e4
      obtain ⟨-, -, rfl, -⟩ := e4
      obtain ⟨-, q2, q3⟩ := getVar_reads hv (I.sync hv) (I.rest hv) e1
      obtain ⟨q4, -⟩ := readAll_reads q3 e3
      simp only at q2 q4
      have hd4 := congrArg Var.dev q4
      have hd2 := congrArg Var.dev q2
      simp only at hd4 hd2
      have hd := hd4.trans hd2
      have q := I.off
      refine ⟨_, _, _, g.s, _, q.stored, q.ord, q.kept, q.rv, ?_, q.any⟩
      rw [(cutFrom_same _ hd j).1]
      exact q.disk
  | reopen h rb sm vrb b e ih =>
    obtain ⟨L, T, es, s, w, I⟩ := ih
    obtain ⟨d1, v1, ps, fr, t, g, lo', e1, q, -⟩ := I.reopen hok hv hB hP2 rb sm vrb b
    rw [e] at e1
    cases e1
    exact ⟨L, ps, fr, t, T, g, lo', q⟩
  | openCut h rb sm e j ih =>
    obtain ⟨L, T, es, s, w, I⟩ := ih
    obtain ⟨d1, evs, ps, fr, t, g1, g2, Tb, TR, -, -, -, hno⟩ := recover_rlcL hok hB hP2 I.ord I.stored rb sm
    rw [e] at g1
    cases g1
    obtain ⟨L1, c1, c2, c3⟩ := I.kept.cutF hok.eraser (TR (· = L) rfl) g2 j
    subst c1
    exact ⟨L1, T, es, s, w, c2, I.ord, c3, I.rv.dev' (I.rv.dev.cutF hok.eraser (fun ph q hq => absurd hq (hno ph q)) g2 j), I.disk, I.any⟩

/-! ### Lookups with variable data after opening -/

theorem pairwise_or {α : Type} {R : α → α → Prop} {l : List α} (h : l.Pairwise R) {x y : α} (hx : x ∈ l) (hy : y ∈ l) (hne : x ≠ y) :
    R x y ∨ R y x := by
  induction l with
  | nil => cases hx
  | cons z t ih =>
    rw [List.pairwise_cons] at h
    rcases List.mem_cons.mp hx with hx | hx <;> rcases List.mem_cons.mp hy with hy | hy
    · exact absurd (hx.trans hy.symm) hne
    · rw [hx]; exact Or.inl (h.1 y hy)
    · rw [hy]; exact Or.inr (h.1 x hx)
    · exact ih h.2 hx hy

/-- The location stored with a key leads to its data. -/
theorem RV.fits (hv : c.VOk) {v : Var} {s : List Byte} {ks : List Nat} {vm : Nat} (R : RV c lo K P H L T es f)
    (D : VDisk c es s v.next v.dev.file) {k loc : Nat} {a : List Byte} {b : Option (List Byte)} (hk : (k, a, b) ∈ Spec.ackedV H)
    (hl : (k, loc) ∈ T) : Gone c L (k, a) ∨ (LocFits c ⟨vm, s, ks, es⟩ v k loc ∧ ∀ bs r, VarAns c ⟨0, s, ks, es⟩ k r bs → r = 0 ∧ bs = b) := by
  have huniq : ∀ {x y : Nat × Nat}, x ∈ T → y ∈ T → x.1 = y.1 → x = y := by
    intro x y hx hy he
    by_contra hne
    have := R.asc
    rcases pairwise_or this hx hy hne with h | h <;> omega
  have hmem := hv.mem
  have hpos : 0 < c.numVar * c.pageSize := Nat.mul_pos hv.nv (by have := hv.page; omega)
  cases b with
  | none =>
    right
    have h1 := R.novar k a hk
    have h2 := huniq hl h1 rfl
    simp only [Prod.mk.injEq, true_and] at h2
    have h3 : ∀ e ∈ es, e.key ≠ k := by
      intro e he hek
      have h4 := huniq (R.ents e he) h1 hek
      simp only [Prod.mk.injEq] at h4
      have := Nat.mod_lt (vaddr c e.a) hpos
      rw [h4.2] at this
      unfold noVar at this
      omega
    refine ⟨Or.inl ⟨h2, h3⟩, ?_⟩
    rintro bs r (⟨q1, q2, -⟩ | ⟨e, e1, e2, -⟩)
    · exact ⟨q1, q2⟩
    · exact absurd e2 (h3 e e1)
  | some b =>
    rcases R.vars k a b hk with ⟨e, e1, e2, e3⟩ | hg
    · right
      have h2 := huniq hl (R.ents e e1) e2.symm
      simp only [Prod.mk.injEq] at h2
      refine ⟨Or.inr ⟨e, e1, e2, h2.2, D.fin e1⟩, ?_⟩
      rintro bs r (⟨-, -, q⟩ | ⟨e', q1, q2, ⟨q3, -⟩ | ⟨-, q3, q4⟩⟩)
      · exact absurd e2 (q e e1)
      · exact absurd q3 (Nat.not_lt_zero _)
      · have : e' = e := by
          by_contra hne
          rcases pairwise_or D.sorted q1 e1 hne with h | h
          · have := h.1; omega
          · have := h.1; omega
        rw [q4, this, e3]
        exact ⟨q3, rfl⟩
    · exact Or.inl hg

/-- A lookup of a record retained finds its variable data. -/
theorem OnV.getVar (hok : RlcOk c K P) (hv : c.VOk) (hB : Bounds c lo K P) (h : OnV c lo K P H d v L ps fr t T g lo')
    (hg : OrderedLog c lo K L) (s1 : Sim c lo K d.min (clr d) L) (s2 : 0 < d.next → Sim c lo K d.min d L) (hP : d.next ≤ P) {k : Nat}
    {a : List Byte} {b : Option (List Byte)} (hk : (k, a, b) ∈ Spec.ackedV H) (hlive : (k, a) ∈ L.live d.min) :
    Gone c L (k, a) ∨
      ∃ d2 v2 st v3, EDB.getVar c d v k = .ok (d2, v2, 0, some a, st) ∧ readAll c v2 st = .ok (v3, b) := by
  have h127 := hok.cap127
  have hsync := h.sync hv
  have hrest := h.rest hv
  have hents : EntsOk c g := h.disk.entsOk (vm := g.vmin) (ks := g.ks)
  have hkK : k < K := by have := (h.rv.bnd _ (ackedV_tried hk)).2; simp only at this; omega
  have hv0 : g.vmin = 0 := by rcases h.inv.wrap with w | w; exact w; exact absurd w (fun x => x)
  -- what remains once the slot is known
  have fin : ∀ (d2 : Data) (i : Nat), (k, slotLoc c d2.rbuf i) ∈ T →
      Gone c L (k, a) ∨ ∃ v2 st v3, setupStream c d2 v k i = .ok (v2, 0, st) ∧ readAll c v2 st = .ok (v3, b) := by
    intro d2 i hl
    rcases h.rv.fits (vm := g.vmin) (ks := g.ks) hv h.disk hk hl with q | ⟨q1, q2⟩
    · exact Or.inl q
    · right
      obtain ⟨v2, z, st, p1, p2, p3, p4, p5⟩ := setupPart (d := d2) (i := i) (key := k) hv hok.cmp h.inv hents hsync q1
      obtain ⟨v3, bs, r1, -, -, r2⟩ := p5.readAll hv (h.inv.recache p2 p3) hents p3
      obtain ⟨r3, r4⟩ := q2 bs (getCode z) (by
        have : g = ⟨0, g.s, g.ks, g.es⟩ := by rw [← hv0]
        rw [← this]; exact r2)
      have hz : z = 0 := by
        rcases p4 with p4 | p4
        · exact p4
        · rw [p4] at r3; simp [getCode] at r3
      subst hz
      rw [r4] at r1
      exact ⟨v2, st, v3, p1, r1⟩
  have hb : recs c d.wbuf = L.buf := s1.buf
  have hsb1 := s1.sortedBuf
  obtain ⟨r, hr1, hr2⟩ := searchNode_ok (p := d.wbuf) hok.cmp hsb1 hkK
  have hcapB := hg.cap.2
  have hcount : pageCount d.wbuf = L.buf.length := by rw [← hb, recs_length]
  have hlk := (lookup_eq_some (Log_live_sorted hg.sorted d.min)).mpr hlive
  simp only [EDB.getVar, hv.vdata, if_true]
  cases r with
  | some i =>
    obtain ⟨i1, i2⟩ := (hr2 i).mp rfl
    have hsb : searchBuffer c d.wbuf k = .ok ((i : Int), some (slotData c d.wbuf i)) := by
      unfold searchBuffer
      rw [if_neg (by omega), hr1]
      simp only [Res.ok_bind]
      unfold toInt8
      simp only
      rw [Nat.mod_eq_of_lt (by omega), if_pos (by omega)]
    have ha : slotData c d.wbuf i = a := by
      have hm : (k, slotData c d.wbuf i) ∈ L.live d.min := by
        rw [mem_live]
        right
        rw [← hb, mem_recs]
        exact ⟨i, i1, by rw [i2]⟩
      have := (lookup_eq_some (Log_live_sorted hg.sorted d.min)).mpr hm
      rw [hlk] at this
      cases this
      rfl
    have hT : (k, slotLoc c d.wbuf i) ∈ T := by have := h.wbuf i i1; rw [i2] at this; exact this
    rcases fin { d with rbuf := d.wbuf } i hT with q | ⟨v2, st, v3, q1, q2⟩
    · exact Or.inl q
    · right
      rw [hsb]
      simp only [Res.ok_bind]
      rw [if_pos (by omega), if_neg (by omega), flushVar_rest hrest]
      simp only [Int.toNat_natCast]
      rw [q1]
      simp only [Res.ok_bind]
      rw [ha]
      exact ⟨_, v2, st, v3, rfl, q2⟩
  | none =>
    have hsb : searchBuffer c d.wbuf k = .ok (-1, none) := by
      unfold searchBuffer
      split_ifs
      · rfl
      · rw [hr1]; rfl
    have hno : ∀ r ∈ L.buf, r.1 ≠ k := by
      intro r hr he
      rw [← hb, mem_recs] at hr
      obtain ⟨j, j1, j2⟩ := hr
      exact absurd ((hr2 j).mpr ⟨j1, by rw [← he, j2]⟩) (by simp)
    have hpos : 0 < d.next := by
      have hn : d.next = L.pages.length := s1.next
      rcases mem_live.mp hlive with ⟨l, hl, -, -⟩ | hbuf
      · omega
      · exact absurd rfl (hno _ hbuf)
    have S := s2 hpos
    obtain ⟨d', code, out, h1, h2, h3, h4⟩ := get_ok hok.cmp hok.geo.N0 hB hok.spline hkK S hP (by
      intro i hi
      omega)
    rcases h4 with ⟨a', a1, a2, a3⟩ | ⟨a1, -⟩
    · subst a2 a3
      rw [hlk] at a1
      cases a1
      obtain ⟨q, i, q1, q2, q3, q4, q5, q6⟩ := get_page hok.cmp hok.geo.N0 hB hok.spline hkK S hP hno h1
      have hi : pageCount d'.rbuf ≤ c.maxRec := by
        obtain ⟨p, z1, z2, -⟩ := S.stored q q1 (by rw [← S.next]; exact q2)
        rw [h2.dev, z1] at q3
        cases q3
        have hlen := hg.cap.1 _ (List.getElem_mem (show q < L.pages.length by rw [← S.next]; exact q2))
        rw [← z2, recs_length] at hlen
        omega
      have hT : (k, slotLoc c d'.rbuf i) ∈ T := by
        rw [h2.dev] at q3
        rcases h.rv.dev _ _ q3 with hbl | hl
        · have := hbl.1
          unfold toInt8 at this
          simp only at this
          rw [Nat.mod_eq_of_lt (by omega), if_pos (by omega)] at this
          omega
        · have := hl i q5; rw [q6] at this; exact this
      rcases fin d' i hT with z | ⟨v2, st, v3, z1, z2⟩
      · exact Or.inl z
      · right
        rw [hsb]
        simp only [Res.ok_bind]
        rw [if_neg (by simp), h1]
        simp only [Res.ok_bind]
        rw [if_pos trivial, q4]
        simp only [Res.ok_bind]
        rw [if_neg (by unfold toInt8; simp only; rw [Nat.mod_eq_of_lt (by omega), if_pos (by omega)]; omega), z1]
        exact ⟨d', v2, st, v3, rfl, z2⟩
    · rw [hlk] at a1; cases a1

end

end EDB
