import Verif.Props.Sync
import Verif.Proofs.RlcVarDisk
import Verif.Proofs.DemoVar

/-!
# Property C78: the variable data file, in terms of the length of the data
-/

namespace EDB

variable {c : Cfg}

theorem putX_stored (hL : c.Layout) (h16 : c.maxRec ≤ 65535) {d : Data} {x : Idx} {key : Nat} {data : List Byte} {loc : Nat}
    {r : Data × Idx × Int × Bool} (hd : data.length = c.dataSize) (h : putX c d x key data loc = .ok r) (h0 : r.2.2.1 = 0) :
    pageCount r.1.wbuf ≠ 0 := by
  unfold putX at h
  rcases ho : orderCheck c d key with ⟨d1, ok⟩
  rw [ho] at h
  simp only at h
  split_ifs at h with h1 h2
  · obtain ⟨⟨d2, pn⟩, -, h⟩ := Res.bind_eq_ok h
    obtain ⟨x2, -, h⟩ := Res.bind_eq_ok h
    obtain ⟨⟨d3, r3, w3⟩, e3, h⟩ := Res.bind_eq_ok h
    cases h
    exact finishPut_count hL hd (by show pageCount (initPage c) < 65535; rw [pageCount_initPage]; omega) e3
  · obtain ⟨⟨d2, pn⟩, -, h⟩ := Res.bind_eq_ok h
    obtain ⟨x2, -, h⟩ := Res.bind_eq_ok h
    obtain ⟨⟨d3, r3, w3⟩, e3, h⟩ := Res.bind_eq_ok h
    cases h
    exact finishPut_count hL hd (by show pageCount (initPage c) < 65535; rw [pageCount_initPage]; omega) e3
  · obtain ⟨⟨d3, r3, w3⟩, e3, h⟩ := Res.bind_eq_ok h
    cases h
    exact finishPut_count hL hd (by omega) e3
  · cases h
    exact absurd h0 (show (1 : Int) ≠ 0 by decide)

theorem rollVar_pos (h0 : 0 < c.vhdr) (hS : c.vhdr < c.pageSize) (key : Nat) (v : Var) (w : Page) {n : Nat} (hp : c.vhdr ≤ v.loc % c.pageSize)
    (hn : n ≤ c.pageSize - v.loc % c.pageSize) :
    (rollVar c key { v with wbuf := w, loc := v.loc + n }).loc % c.pageSize =
      c.vhdr + (v.loc % c.pageSize - c.vhdr + n) % (c.pageSize - c.vhdr) := by
  have hlt := Nat.mod_lt v.loc (show c.pageSize > 0 by omega)
  have hq := Nat.div_add_mod v.loc c.pageSize
  have e : (v.loc + n) % c.pageSize = (v.loc % c.pageSize + n) % c.pageSize := by rw [Nat.mod_add_mod]
  unfold rollVar
  simp only
  by_cases hz : n = c.pageSize - v.loc % c.pageSize
  · have : (v.loc + n) % c.pageSize = 0 := by
      rw [e, hz, Nat.add_sub_cancel' hlt.le, Nat.mod_self]
    rw [if_pos this]
    simp only [writeVar_loc]
    rw [Nat.add_mod, this, Nat.zero_add, Nat.mod_mod, Nat.mod_eq_of_lt hS,
      show v.loc % c.pageSize - c.vhdr + n = c.pageSize - c.vhdr by omega, Nat.mod_self, Nat.add_zero]
  · have h1 : (v.loc + n) % c.pageSize = v.loc % c.pageSize + n := by rw [e, Nat.mod_eq_of_lt (by omega)]
    rw [if_neg (by omega), Nat.mod_eq_of_lt (show v.loc % c.pageSize - c.vhdr + n < c.pageSize - c.vhdr by omega)]
    show (v.loc + n) % c.pageSize = _
    omega

theorem putChunks_pos (h0 : 0 < c.vhdr) (hS : c.vhdr < c.pageSize) (key : Nat) : ∀ (f : Nat) (v v' : Var) (bs : List Byte),
    c.vhdr ≤ v.loc % c.pageSize → putChunks c key f v bs = .ok v' →
    v'.loc % c.pageSize = c.vhdr + (v.loc % c.pageSize - c.vhdr + bs.length) % (c.pageSize - c.vhdr) := by
  intro f
  induction f with
  | zero => intro v v' bs _ h; cases h
  | succ f ih =>
    intro v v' bs hp h
    have hlt := Nat.mod_lt v.loc (show c.pageSize > 0 by omega)
    rw [putChunks] at h
    by_cases hb : bs = []
    · rw [if_pos hb] at h
      cases h
      rw [hb, List.length_nil, Nat.add_zero, Nat.mod_eq_of_lt (show v.loc % c.pageSize - c.vhdr < c.pageSize - c.vhdr by omega)]
      omega
    · rw [if_neg hb] at h
      simp only at h
      have r := rollVar_pos h0 hS key v (wr v.wbuf (v.loc % c.pageSize) (bs.take (min (c.pageSize - v.loc % c.pageSize) bs.length)))
        (n := min (c.pageSize - v.loc % c.pageSize) bs.length) hp (Nat.min_le_left _ _)
      have t := ih _ _ _ (by rw [r]; omega) h
      rw [t, r, Nat.add_sub_cancel_left, Nat.mod_add_mod, List.length_drop]
      congr 2
      have := Nat.min_le_right (c.pageSize - v.loc % c.pageSize) bs.length
      omega

theorem storeBytes_pos (h0 : 0 < c.vhdr) (hS : c.vhdr < c.pageSize) {key : Nat} {v v' : Var} {bs : List Byte} (hp : c.vhdr ≤ v.loc % c.pageSize)
    (h : storeBytes c v key bs = .ok v') :
    v'.loc % c.pageSize = c.vhdr + (v.loc % c.pageSize - c.vhdr + (bs.length + 4)) % (c.pageSize - c.vhdr) := by
  have key1 : ∀ u : Var, u.loc = v.loc → (let off := u.loc % c.pageSize
      if off + 4 > c.pageSize then Res.ub
      else putChunks c key (bs.length + 1) (rollVar c key { u with wbuf := wr (wr u.wbuf 4 (leBytes c.keySize key)) off (leBytes 4 bs.length), loc := u.loc + 4 }) bs) =
      .ok v' → v'.loc % c.pageSize = c.vhdr + (v.loc % c.pageSize - c.vhdr + (bs.length + 4)) % (c.pageSize - c.vhdr) := by
    intro u hu h
    simp only at h
    by_cases ho : u.loc % c.pageSize + 4 > c.pageSize
    · rw [if_pos ho] at h; cases h
    · rw [if_neg ho] at h
      have r := rollVar_pos h0 hS key u (wr (wr u.wbuf 4 (leBytes c.keySize key)) (u.loc % c.pageSize) (leBytes 4 bs.length))
        (n := 4) (by rw [hu]; exact hp) (by omega)
      have t := putChunks_pos h0 hS key _ _ _ _ (by rw [r]; omega) h
      rw [t, r, Nat.add_sub_cancel_left, Nat.mod_add_mod, hu]
      congr 2
      omega
  unfold storeBytes at h
  refine key1 _ ?_ h
  split_ifs <;> rfl

/-- C78, variable data file, for a client (`_partial`: without record-level consistency, and an insert into an empty variable write buffer, as
after every flush).  An insert with `bs.length` bytes of variable data returns 0, and so does the `embedDBFlush` after it.  Then all
of the variable data file is on the medium if the data and its length field do not exactly fill variable pages; otherwise only
if everything the insert left in the file was there already. -/
theorem C78_var_put_partial (hL : c.Layout) (h16 : c.maxRec ≤ 65535) (hu : c.useVdata = true) (hr : c.rlc = false)
    (hS : c.vhdr + 4 ≤ c.pageSize) {d d1 d2 : Data} {x x1 x2 : Idx} {v v1 v2 : Var} {s s1 s2 : Synced} {key : Nat} {a bs : List Byte}
    {fl0 fl : StFile → Bool} (ha : a.length = c.dataSize) (he : v.loc % c.pageSize = c.vhdr) (hf : fl .var = true)
    (h1 : stepSync c d x v s (.putVar key a (some bs) fl0) = .ok (d1, x1, v1, s1, 0))
    (h2 : stepSync c d1 x1 v1 s1 (.flush fl) = .ok (d2, x2, v2, s2, 0)) :
    s1.var = s.var ∧
      (s2.var = v2.dev.log.length ↔ s.var = v1.dev.log.length ∨ (bs.length + 4) % (c.pageSize - c.vhdr) ≠ 0) := by
  have h0 : 0 < c.vhdr := by unfold Cfg.vhdr; omega
  unfold stepSync at h1
  obtain ⟨s3, g0, h1⟩ := Res.bind_eq_ok h1
  have hs : s3 = s := by
    unfold syncPut at g0
    rw [if_neg (by simp [hr])] at g0
    cases g0; rfl
  obtain ⟨⟨d3, x3, v3, r3⟩, g1, h1⟩ := Res.bind_eq_ok h1
  cases h1
  refine ⟨by rw [hs], ?_⟩
  rw [C78_var_partial hu fl hf h2, hs]
  have hpre : (preVar c d v).loc % c.pageSize = c.vhdr := by
    unfold preVar
    split_ifs
    · simp only [writeVar_loc]
      rw [he, Nat.add_mod, he, show c.pageSize - c.vhdr + c.vhdr = c.pageSize by omega, Nat.mod_self, Nat.add_zero,
        Nat.mod_eq_of_lt (by omega)]
    · exact he
  unfold putVar at g1
  simp only [hu, if_true, hr] at g1
  obtain ⟨⟨d4, x4, r4, w4⟩, g2, g1⟩ := Res.bind_eq_ok g1
  by_cases hz : r4 = 0
  · simp only [hz, ne_eq, not_true_eq_false, if_false] at g1
    obtain ⟨v5, g3, g1⟩ := Res.bind_eq_ok g1
    cases g1
    have p := storeBytes_pos (v := { preVar c d v with hasVar := true }) h0 (by omega) (by rw [hpre]) g3
    rw [show ({ preVar c d v with hasVar := true } : Var).loc = (preVar c d v).loc from rfl, hpre, Nat.sub_self, Nat.zero_add] at p
    have hc : pageCount d1.wbuf ≠ 0 := putX_stored hL h16 ha g2 hz
    simp only [Bool.false_eq_true, if_false, p, ne_eq, hc, not_false_eq_true, true_and]
    exact or_congr Iff.rfl (by omega)
  · simp only [ne_eq, hz, not_false_eq_true, if_true] at g1
    cases g1
    exact absurd rfl hz

/-- The hypotheses are met by a table just created: a record with five bytes of variable data and a flush put the variable page on the
medium; with as many bytes as fill the page they do not. -/
example : demoV.Layout ∧ demoV.maxRec ≤ 65535 ∧ demoV.useVdata = true ∧ demoV.rlc = false ∧ demoV.vhdr + 4 ≤ demoV.pageSize ∧
    (dat 1).length = demoV.dataSize ∧ (Var.fresh demoV (fun _ => 0) false).loc % demoV.pageSize = demoV.vhdr ∧
    ∀ n ∈ [(5, 1), (22, 0)], ((stepSync demoV (Data.fresh demoV (fun _ => 0) (fun _ => (0, 0))) (Idx.fresh demoV (fun _ => 0))
      (Var.fresh demoV (fun _ => 0) false) sync0 (.putVar 1 (dat 1) (some (blob n.1 10)) okFl)).bind fun (d, x, v, s, r) =>
      (stepSync demoV d x v s (.flush okFl)).bind fun (_, _, v', s', r') => .ok (r, r', v'.dev.log.length, s'.var)).check
      (fun t => decide (t = (0, 0, 1, n.2))) = true := by
  refine ⟨demoV_layout, by decide, rfl, rfl, by decide, rfl, by decide, ?_⟩
  decide +kernel

end EDB
