import Verif.Proofs.RlcVarDisk
import Verif.Proofs.RlcLife

/-! Helper lemmas: the locations of variable data stored with the records of a table with record-level consistency. -/

namespace EDB

open Spec (Log VOp VOut CutPut KeepsPermanent)

/-- Keys and the locations that were stored with them. -/
abbrev Locs := List (Nat × Nat)

/-- The records of the page have the locations in `T`. -/
def Locd (c : Cfg) (T : Locs) (p : Page) : Prop := ∀ i, i < pageCount p → (slotKey c p i, slotLoc c p i) ∈ T

/-- All pages of the file do (unless erased). -/
def LocDev (c : Cfg) (P : Nat) (T : Locs) (f : Nat → Option Page) : Prop := ∀ ph p, f ph = some p → Blank P p ∨ Locd c T p

section
variable {c : Cfg} {lo K P : Nat} {T T' : Locs} {p q : Page} {f : Nat → Option Page} {d d' : Data} {v : Var} {L : Log}

theorem Locd.same (h : Locd c T q) (e : SameRecs c p q) : Locd c T p := by
  intro i hi
  rw [e.count] at hi
  rw [e.slotKey, e.slotLoc]
  exact h i hi

theorem Locd.mono (h : Locd c T p) (hs : ∀ x ∈ T, x ∈ T') : Locd c T' p := fun i hi => hs _ (h i hi)

theorem Locd.init (c : Cfg) (T : Locs) : Locd c T (initPage c) := by
  intro i hi
  rw [count_init] at hi
  omega

theorem LocDev.mono (h : LocDev c P T f) (hs : ∀ x ∈ T, x ∈ T') : LocDev c P T' f :=
  fun ph p hp => (h ph p hp).imp_right (·.mono hs)

theorem Locd.append (hL : c.Layout) (hv : c.useVdata = true) (H : Locd c T p) {key : Nat} {data : List Byte} {loc : Nat}
    (hd : data.length = c.dataSize) (hk : key < 256 ^ c.keySize) (hl : loc < 2 ^ 32) (hn : pageCount p < 65535) :
    Locd c (T ++ [(key, loc)]) (appendRec c p key data loc) := by
  intro i hi
  have hs := appendRec_same hL p key data loc hd
  rw [hs.count, appendCore_count, Nat.mod_eq_of_lt (by omega)] at hi
  rw [hs.slotKey]
  by_cases h : i < pageCount p
  · rw [append_loc_old hL hv p key data loc hd h, appendCore_key_old c p key data loc hd h]
    exact List.mem_append_left _ (H i h)
  · have : i = pageCount p := by omega
    subst this
    rw [append_loc_new hL hv p key data loc hd hl, appendCore_key_new c p key data loc hk]
    exact List.mem_append_right _ (List.mem_singleton.mpr rfl)

theorem LocDev.run (hE : RlcEraser c P) : ∀ (evs : List Ev) (f : Nat → Option Page), LocDev c P T f →
    (∀ ph q, Ev.write ph q ∈ evs → Locd c T q) → LocDev c P T (evs.foldl (Spec.applyEv c.eraseFx) f) := by
  intro evs
  induction evs with
  | nil => intro f h _; exact h
  | cons e t ih =>
    intro f h hw
    refine ih _ ?_ (fun ph q hq => hw ph q (List.mem_cons_of_mem _ hq))
    intro ph p hp
    cases e with
    | write a q =>
      simp only [Spec.applyEv] at hp
      split_ifs at hp
      · cases hp
        exact Or.inr (hw a _ List.mem_cons_self)
      · exact h ph p hp
    | erase a b =>
      simp only [Spec.applyEv] at hp
      split_ifs at hp
      · cases hf : f ph with
        | none => rw [hf, hE.none] at hp; cases hp
        | some q =>
          rw [hf] at hp
          rcases hE.some with h1 | h1
          · rw [h1] at hp
            cases hp
            exact h ph _ hf
          · obtain ⟨e, e1, e2⟩ := h1 q
            rw [e1] at hp
            cases hp
            exact Or.inl e2
      · exact h ph p hp

/-! ### Devices -/

theorem LocDev.gaps {f f' : Nat → Option Page} (h : LocDev c P T f) (g : Gaps c P f f') : LocDev c P T f' := by
  intro ph p hp
  rcases g ph with e | ⟨_, _, q, e1, e2, e3⟩
  · exact h ph p (by rw [← e]; exact hp)
  · rw [e1] at hp
    cases hp
    refine Or.inl ⟨e2, ?_⟩
    rcases e3 with h | h
    · exact Or.inl h.1
    · exact Or.inr ⟨h.1, h.2.1⟩

theorem LocDev.cutF (hE : RlcEraser c P) {a b : Dev} {evs : List Ev} (h : LocDev c P T a.file)
    (hw : ∀ ph q, Ev.write ph q ∈ evs → Locd c T q) (hb : b = devRun c a evs) (j : Nat) : LocDev c P T (cutFrom c a b j).file := by
  rw [(cutFrom_run hb j).1]
  exact LocDev.run hE _ _ h (fun ph q hq => hw ph q (List.mem_of_mem_take hq))

theorem LocDev.devRun (hE : RlcEraser c P) {a : Dev} {evs : List Ev} (h : LocDev c P T a.file)
    (hw : ∀ ph q, Ev.write ph q ∈ evs → Locd c T q) : LocDev c P T (devRun c a evs).file := LocDev.run hE _ _ h hw

/-! ### Tables without an index -/

theorem putX_plain (hi : c.useIndex = false) (d : Data) (x : Idx) (key : Nat) (data : List Byte) (loc : Nat) :
    putX c d x key data loc = (putD c d key data loc >>= fun y => .ok (y.1, x, y.2.1, y.2.2)) := by
  unfold putX putD putPage
  generalize orderCheck c d key = oc
  obtain ⟨d1, ok⟩ := oc
  simp only [hi, Bool.false_eq_true, if_false]
  cases ok with
  | false => rfl
  | true =>
    simp only [if_true]
    by_cases h : pageCount d1.wbuf ≥ c.maxRec
    · rw [if_pos h, if_pos h]
      cases writePage c d1 with
      | ok y => rfl
      | ub => rfl
      | fuel => rfl
    · rw [if_neg h, if_neg h]

theorem flushX_plain (hi : c.useIndex = false) (d : Data) (x : Idx) :
    flushX c d x = (flushD c d >>= fun y => .ok (y.1, x, y.2.1, y.2.2)) := by
  unfold flushX flushD
  simp only [hi, Bool.false_eq_true, if_false]
  by_cases h : pageCount d.wbuf < 1
  · rw [if_pos h, if_pos h]; rfl
  · rw [if_neg h, if_neg h]
    cases writePage c d with
    | ok y => obtain ⟨d2, pn⟩ := y; cases pn <;> rfl
    | ub => rfl
    | fuel => rfl

theorem preVar_rest (hv : c.VOk) (hr : c.rlc = true) (ho : v.loc % c.pageSize = c.vhdr) (d : Data) : preVar c d v = v := by
  have := hv.page
  unfold preVar
  have h : ¬ (v.loc % c.pageSize + 4 > c.pageSize ∨ (c.rlc = false ∧ pageCount d.wbuf ≥ c.maxRec)) := by
    rw [hr, ho]
    rintro (h | ⟨h, -⟩)
    · omega
    · cases h
  rw [if_neg h]

/-- What `embedDBPutVar` does once the record is stored. -/
def restPut (c : Cfg) (d' : Data) (x : Idx) (v1 : Var) (key : Nat) (r : Int) : Option (List Byte) → Res (Data × Idx × Var × Int)
  | none => .ok (d', x, v1, r)
  | some bs => if r ≠ 0 then .ok (d', x, v1, r) else (storeBytes c v1 key bs >>= fun v2 => .ok (d', x, (flushVar c v2).1, 0))

/-- `embedDBPutVar` when the current variable page is empty. -/
theorem putVar_rest (hv : c.VOk) (hr : c.rlc = true) (ho : v.loc % c.pageSize = c.vhdr) (d : Data) (x : Idx) (key : Nat)
    (data : List Byte) (b : Option (List Byte)) {d' : Data} {r : Int} {w : Bool}
    (e : putD c d key data (varLoc c { v with hasVar := b.isSome }) = .ok (d', r, w)) :
    putVar c d x v key data b = restPut c d' x { v with hasVar := b.isSome } key r b := by
  cases b with
  | none =>
    simp only [Option.isSome_none] at e
    simp only [putVar, hv.vdata, if_true, preVar_rest hv hr ho, putX_plain hv.idx, e, Res.ok_bind]
    rfl
  | some bs =>
    simp only [Option.isSome_some] at e
    simp only [putVar, hv.vdata, if_true, preVar_rest hv hr ho, putX_plain hv.idx, e, Res.ok_bind, hr, restPut]
    rfl

theorem flushV_rest (hv : c.VOk) (ho : v.loc % c.pageSize = c.vhdr) (d : Data) (x : Idx) {d' : Data} {w : Bool}
    (e : flushD c d = .ok (d', 0, w)) : flushV c d x v = .ok (d', x, v, 0) := by
  simp only [flushV, flushX_plain hv.idx, e, Res.ok_bind, flushVar_rest ho]
  cases w <;> rfl

end

end EDB
