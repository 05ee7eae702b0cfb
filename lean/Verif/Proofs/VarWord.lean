import Verif.Model.VarWord
import Verif.Proofs.RlcVarDisk

/-! # The 32-bit position follows the unbounded one -/

namespace EDB

open Spec (VOp VOut)

/-- The state whose position is kept in 32 bits. -/
def Var.word (v : Var) : Var := { v with loc := w32 v.loc }

/-- The position in the page and in the file can be computed from the lower 32 bits. -/
def Agree (c : Cfg) (n : Nat) : Prop :=
  w32 n % c.pageSize = n % c.pageSize ∧ w32 n % (c.numVar * c.pageSize) = n % (c.numVar * c.pageSize)

/-- The position in the page can. -/
def PageAgree (c : Cfg) (n : Nat) : Prop := w32 n % c.pageSize = n % c.pageSize

theorem Agree.page {c : Cfg} {n : Nat} (h : Agree c n) : PageAgree c n := h.1

theorem pageAgree_dvd (c : Cfg) (h : c.pageSize ∣ 2 ^ 32) (n : Nat) : PageAgree c n := Nat.mod_mod_of_dvd _ h

theorem agree_below (c : Cfg) {n : Nat} (h : n < 2 ^ 32) : Agree c n := by
  unfold Agree w32
  rw [Nat.mod_eq_of_lt h]
  exact ⟨rfl, rfl⟩

theorem agree_dvd (c : Cfg) (h : c.numVar * c.pageSize ∣ 2 ^ 32) (n : Nat) : Agree c n := by
  unfold Agree w32
  exact ⟨Nat.mod_mod_of_dvd _ (dvd_trans (dvd_mul_left _ _) h), Nat.mod_mod_of_dvd _ h⟩

theorem w32_add (a b : Nat) : w32 (w32 a + b) = w32 (a + b) := by
  unfold w32; exact Nat.mod_add_mod _ _ _

section
variable {c : Cfg} {v : Var}

theorem readVar_word (v : Var) (ph : Nat) : readVar v.word ph = ((readVar v ph).1.word, (readVar v ph).2) := by
  unfold readVar Var.word
  simp only
  split_ifs
  · rfl
  · cases v.dev.file ph <;> rfl

theorem storeVar_word (v : Var) : storeVar c v.word = ((storeVar c v).1.word, (storeVar c v).2) := by
  unfold storeVar Var.word
  simp only
  split_ifs <;> rfl

theorem writeVar_word (v : Var) : writeVar c v.word = ((writeVar c v).1.word, (writeVar c v).2) := by
  unfold writeVar
  simp only [show v.word.next = v.next from rfl, show v.word.avail = v.avail from rfl, show v.word.dev = v.dev from rfl]
  by_cases ha : v.avail = 0
  · rw [if_pos ha, if_pos ha]
    by_cases he : (v.dev.erase c (v.next % c.numVar) (v.next % c.numVar + c.B)).2 = true
    · rw [if_pos he, if_pos he]
      have := readVar_word { v with dev := (v.dev.erase c (v.next % c.numVar) (v.next % c.numVar + c.B)).1, avail := v.avail + c.B }
        ((v.next % c.numVar + c.B - 1) % c.numVar)
      have e : (⟨(v.dev.erase c (v.next % c.numVar) (v.next % c.numVar + c.B)).1, v.word.wbuf, v.word.rbuf, v.word.buffered, v.word.loc,
          v.word.minRec, v.avail + c.B, v.next, v.word.hasVar⟩ : Var) =
        ({ v with dev := (v.dev.erase c (v.next % c.numVar) (v.next % c.numVar + c.B)).1, avail := v.avail + c.B } : Var).word := rfl
      rw [e, this]
      simp only
      split_ifs with h
      · generalize (readVar _ _).1 = w
        exact storeVar_word { w with minRec := (setLow c.keySize w.minRec (leNat (rd w.rbuf 4 c.keySize)) + 1) % 2 ^ 64 }
      · rfl
    · rw [if_neg he, if_neg he]
      rfl
  · rw [if_neg ha, if_neg ha]
    exact storeVar_word v

theorem word_advance (v : Var) (n : Nat) : v.word.advance n = { v with loc := v.loc + n }.word := by
  unfold Var.advance Var.word
  simp only [w32_add]

theorem flushVar_word (h : PageAgree c v.loc) : flushVar32 c v.word = ((flushVar c v).1.word, (flushVar c v).2) := by
  unfold flushVar32 flushVar
  rw [show v.word.loc = w32 v.loc from rfl, h, writeVar_word]
  split_ifs
  · rfl
  · have hl := writeVar_loc (c := c) v
    rcases hw : writeVar c v with ⟨w, o⟩
    rw [hw] at hl
    simp only at hl ⊢
    cases o with
    | none => rfl
    | some n =>
      simp only
      rw [show w.word.loc = w32 w.loc from rfl, hl, h]
      simp only [Var.advance, Var.word, w32_add, hl]

theorem rollVar_word (key : Nat) (h : PageAgree c v.loc) : rollVar32 c key v.word = (rollVar c key v).word := by
  unfold rollVar32 rollVar
  rw [show v.word.loc = w32 v.loc from rfl, h, writeVar_word]
  split_ifs
  · simp only [Var.advance, Var.word, w32_add]
  · rfl

theorem preVar_word (d : Data) (h : PageAgree c v.loc) : preVar32 c d v.word = (preVar c d v).word := by
  have h : w32 v.loc % c.pageSize = v.loc % c.pageSize := h
  unfold preVar32 preVar
  rw [show v.word.loc = w32 v.loc from rfl, h, writeVar_word]
  have hl := writeVar_loc (c := c) v
  split_ifs
  · simp only [show (writeVar c v).1.word.loc = w32 (writeVar c v).1.loc from rfl, hl, h]
    simp only [Var.advance, Var.word, w32_add, hl]
  · rfl

theorem rollVar_loc (key : Nat) (v : Var) : v.loc ≤ (rollVar c key v).loc := by
  unfold rollVar
  split_ifs
  · simp only [writeVar_loc]; omega
  · exact le_rfl

theorem flushVar_loc (v : Var) : v.loc ≤ (flushVar c v).1.loc := by
  unfold flushVar
  split_ifs
  · exact le_rfl
  · have hl := writeVar_loc (c := c) v
    rcases hw : writeVar c v with ⟨w, o⟩
    rw [hw] at hl
    simp only at hl
    cases o with
    | none => simp only [hl, le_refl]
    | some n => simp only [hl]; omega

theorem preVar_loc (d : Data) (v : Var) : v.loc ≤ (preVar c d v).loc := by
  unfold preVar
  split_ifs
  · simp only [writeVar_loc]; omega
  · exact le_rfl

theorem putChunks_loc (key : Nat) : ∀ (f : Nat) (v v' : Var) (bs : List Byte), putChunks c key f v bs = .ok v' → v.loc ≤ v'.loc := by
  intro f
  induction f with
  | zero => intro v v' bs h; cases h
  | succ f ih =>
    intro v v' bs h
    rw [putChunks] at h
    split_ifs at h
    · cases h; exact le_rfl
    · have h1 := ih _ _ _ h
      have h2 := rollVar_loc (c := c) key
        { v with wbuf := wr v.wbuf (v.loc % c.pageSize) (bs.take (min (c.pageSize - v.loc % c.pageSize) bs.length)),
                 loc := v.loc + min (c.pageSize - v.loc % c.pageSize) bs.length }
      simp only at h1 h2
      omega

/-- A result with the position kept in 32 bits. -/
def wordRes : Res Var → Res Var
  | .ok v => .ok v.word
  | .ub => .ub
  | .fuel => .fuel

theorem putChunks_word (key : Nat) : ∀ (f : Nat) (v : Var) (bs : List Byte),
    (∀ n, (∀ v', putChunks c key f v bs = .ok v' → n ≤ v'.loc) → PageAgree c n) →
    putChunks32 c key f v.word bs = wordRes (putChunks c key f v bs) := by
  intro f
  induction f with
  | zero => intro v bs _; rfl
  | succ f ih =>
    intro v bs hA
    have h0 : PageAgree c v.loc := hA _ fun v' h => putChunks_loc key _ _ _ _ h
    rw [putChunks] at hA
    rw [putChunks32, putChunks]
    split_ifs at hA ⊢
    · rfl
    · rw [show v.word.loc = w32 v.loc from rfl, h0, show v.word.wbuf = v.wbuf from rfl]
      simp only at hA ⊢
      have e : (⟨v.word.dev, wr v.wbuf (v.loc % c.pageSize) (bs.take (min (c.pageSize - v.loc % c.pageSize) bs.length)), v.word.rbuf,
          v.word.buffered, w32 v.loc, v.word.minRec, v.word.avail, v.word.next, v.word.hasVar⟩ : Var).advance
          (min (c.pageSize - v.loc % c.pageSize) bs.length) =
        Var.word { v with wbuf := wr v.wbuf (v.loc % c.pageSize) (bs.take (min (c.pageSize - v.loc % c.pageSize) bs.length)),
                          loc := v.loc + min (c.pageSize - v.loc % c.pageSize) bs.length } := by
        simp only [Var.advance, Var.word, w32_add]
      rw [e, rollVar_word]
      · exact ih _ _ hA
      · refine hA _ fun v' h => ?_
        exact le_trans (rollVar_loc key _) (putChunks_loc key _ _ _ _ h)

theorem storeBytes_loc {key : Nat} {bs : List Byte} {v' : Var} (h : storeBytes c v key bs = .ok v') : v.loc ≤ v'.loc := by
  unfold storeBytes at h
  simp only at h
  split_ifs at h
  · have h1 := putChunks_loc key _ _ _ _ h
    have := le_trans (rollVar_loc (c := c) key _) h1
    simp only at this
    omega
  · have h1 := putChunks_loc key _ _ _ _ h
    have := le_trans (rollVar_loc (c := c) key _) h1
    simp only at this
    omega

/-- `storeBytes` after `minRec` was set. -/
def storeCore (c : Cfg) (v : Var) (key : Nat) (bs : List Byte) : Res Var :=
  if v.loc % c.pageSize + 4 > c.pageSize then .ub
  else
    putChunks c key (bs.length + 1) (rollVar c key
      { v with wbuf := wr (wr v.wbuf 4 (leBytes c.keySize key)) (v.loc % c.pageSize) (leBytes 4 bs.length), loc := v.loc + 4 }) bs

/-- The same in 32 bits. -/
def storeCore32 (c : Cfg) (v : Var) (key : Nat) (bs : List Byte) : Res Var :=
  if v.loc % c.pageSize + 4 > c.pageSize then .ub
  else
    putChunks32 c key (bs.length + 1) (rollVar32 c key
      ({ v with wbuf := wr (wr v.wbuf 4 (leBytes c.keySize key)) (v.loc % c.pageSize) (leBytes 4 bs.length) }.advance 4)) bs

theorem storeCore_loc {key : Nat} {bs : List Byte} {v' : Var} (h : storeCore c v key bs = .ok v') : v.loc ≤ v'.loc := by
  unfold storeCore at h
  split_ifs at h
  have h1 := le_trans (rollVar_loc (c := c) key _) (putChunks_loc key _ _ _ _ h)
  simp only at h1
  omega

theorem storeCore_word (key : Nat) (bs : List Byte) (hA : ∀ n, (∀ v', storeCore c v key bs = .ok v' → n ≤ v'.loc) → PageAgree c n) :
    storeCore32 c v.word key bs = wordRes (storeCore c v key bs) := by
  have h0 : PageAgree c v.loc := hA _ fun v' h => storeCore_loc h
  unfold storeCore32
  unfold storeCore at hA ⊢
  rw [show v.word.loc = w32 v.loc from rfl, h0, show v.word.wbuf = v.wbuf from rfl]
  split_ifs at hA ⊢
  · rfl
  · have e : (⟨v.word.dev, wr (wr v.wbuf 4 (leBytes c.keySize key)) (v.loc % c.pageSize) (leBytes 4 bs.length), v.word.rbuf,
          v.word.buffered, w32 v.loc, v.word.minRec, v.word.avail, v.word.next, v.word.hasVar⟩ : Var).advance 4 =
      Var.word { v with wbuf := wr (wr v.wbuf 4 (leBytes c.keySize key)) (v.loc % c.pageSize) (leBytes 4 bs.length), loc := v.loc + 4 } := by
      simp only [Var.advance, Var.word, w32_add]
    rw [e, rollVar_word]
    · exact putChunks_word key _ _ _ hA
    · exact hA _ fun v' h => le_trans (rollVar_loc (c := c) key _) (putChunks_loc key _ _ _ _ h)

theorem storeBytes_core (v : Var) (key : Nat) (bs : List Byte) : storeBytes c v key bs =
    storeCore c (if v.minRec = 2 ^ 64 - 1 then { v with minRec := setLow c.keySize v.minRec key } else v) key bs := rfl

theorem storeBytes32_core (v : Var) (key : Nat) (bs : List Byte) : storeBytes32 c v key bs =
    storeCore32 c (if v.minRec = 2 ^ 64 - 1 then { v with minRec := setLow c.keySize v.minRec key } else v) key bs := rfl

theorem storeBytes_word (key : Nat) (bs : List Byte) (hA : ∀ n, (∀ v', storeBytes c v key bs = .ok v' → n ≤ v'.loc) → PageAgree c n) :
    storeBytes32 c v.word key bs = wordRes (storeBytes c v key bs) := by
  rw [storeBytes32_core]
  rw [storeBytes_core] at hA ⊢
  rw [show v.word.minRec = v.minRec from rfl]
  split_ifs at hA ⊢
  · exact storeCore_word (v := { v with minRec := setLow c.keySize v.minRec key }) key bs hA
  · exact storeCore_word key bs hA

theorem inFile_eq (hF : c.numVar * c.pageSize < 2 ^ 32) (h0 : 0 < c.numVar * c.pageSize) (a : Nat) :
    c.inFile a = .ok (a % (c.numVar * c.pageSize)) := by
  unfold Cfg.inFile w32
  rw [Nat.mod_eq_of_lt hF, if_neg (by omega)]

theorem varLoc_word (hF : c.numVar * c.pageSize < 2 ^ 32) (h0 : 0 < c.numVar * c.pageSize) (h : Agree c v.loc) :
    varLoc32 c v.word = .ok (varLoc c v) := by
  unfold varLoc32 varLoc
  rw [show v.word.hasVar = v.hasVar from rfl, inFile_eq hF h0, show v.word.loc = w32 v.loc from rfl, h.2]
  split_ifs <;> rfl

/-- The state after an operation with the position kept in 32 bits. -/
def wordStep {α : Type} : Res (Data × Idx × Var × α) → Res (Data × Idx × Var × α)
  | .ok (d, x, v, o) => .ok (d, x, v.word, o)
  | .ub => .ub
  | .fuel => .fuel

theorem putVar_loc {d d' : Data} {x x' : Idx} {v' : Var} {key : Nat} {data : List Byte} {b : Option (List Byte)} {r : Int}
    (h : putVar c d x v key data b = .ok (d', x', v', r)) : v.loc ≤ v'.loc ∧ (c.useVdata = true → (preVar c d v).loc ≤ v'.loc) := by
  have hp := preVar_loc (c := c) d v
  suffices hs : (c.useVdata = true → (preVar c d v).loc ≤ v'.loc) ∧ (c.useVdata = false → v.loc = v'.loc) by
    refine ⟨?_, hs.1⟩
    cases hu : c.useVdata with
    | true => have := hs.1 hu; omega
    | false => have := hs.2 hu; omega
  by_cases hu : c.useVdata = true
  · refine ⟨fun _ => ?_, fun h => by simp [hu] at h⟩
    rcases b with _ | bs
    · simp only [putVar, if_pos hu] at h
      obtain ⟨⟨d1, x1, r1, w1⟩, -, h2⟩ := Res.bind_eq_ok h
      simp only [Res.ok.injEq, Prod.mk.injEq] at h2
      obtain ⟨-, -, rfl, -⟩ := h2
      exact le_rfl
    · simp only [putVar, if_pos hu] at h
      obtain ⟨⟨d1, x1, r1, w1⟩, -, h2⟩ := Res.bind_eq_ok h
      simp only at h2
      by_cases hr : r1 ≠ 0
      · simp only [if_pos hr, Res.ok.injEq, Prod.mk.injEq] at h2
        obtain ⟨-, -, rfl, -⟩ := h2
        exact le_rfl
      · rw [if_neg hr] at h2
        obtain ⟨w, h3, h4⟩ := Res.bind_eq_ok h2
        have := storeBytes_loc h3
        simp only [Res.ok.injEq, Prod.mk.injEq] at h4
        obtain ⟨-, -, rfl, -⟩ := h4
        simp only at this
        split_ifs
        · exact le_trans this (flushVar_loc _)
        · exact this
  · refine ⟨fun h => absurd h hu, fun _ => ?_⟩
    simp only [putVar, if_neg hu, Res.ok.injEq, Prod.mk.injEq] at h
    obtain ⟨-, -, rfl, -⟩ := h
    rfl

theorem putVar_word (hF : c.numVar * c.pageSize < 2 ^ 32) (h0 : 0 < c.numVar * c.pageSize) (d : Data) (x : Idx) (key : Nat) (data : List Byte)
    (b : Option (List Byte)) (hA : ∀ n, (∀ d' x' v' r, putVar c d x v key data b = .ok (d', x', v', r) → n ≤ v'.loc) → Agree c n) :
    putVar32 c d x v.word key data b = wordStep (putVar c d x v key data b) := by
  have a0 : Agree c v.loc := hA _ fun d' x' v' r h => (putVar_loc h).1
  by_cases hu : c.useVdata = true
  · have a1 : Agree c (preVar c d v).loc := hA _ fun d' x' v' r h => (putVar_loc h).2 hu
    unfold putVar32
    unfold putVar at hA ⊢
    rw [if_pos hu, if_pos hu]
    rw [if_pos hu] at hA
    simp only [preVar_word d a0.page] at hA ⊢
    cases b with
    | none =>
      simp only at hA ⊢
      have := varLoc_word (v := { preVar c d v with hasVar := false }) hF h0 a1
      rw [show ({ (preVar c d v).word with hasVar := false } : Var) = ({ preVar c d v with hasVar := false } : Var).word from rfl, this]
      simp only [Res.ok_bind]
      cases hx : putX c d x key data (varLoc c { preVar c d v with hasVar := false }) with
      | ub => rfl
      | fuel => rfl
      | ok t => rfl
    | some bs =>
      simp only at hA ⊢
      have := varLoc_word (v := { preVar c d v with hasVar := true }) hF h0 a1
      rw [show ({ (preVar c d v).word with hasVar := true } : Var) = ({ preVar c d v with hasVar := true } : Var).word from rfl, this]
      simp only [Res.ok_bind]
      cases hx : putX c d x key data (varLoc c { preVar c d v with hasVar := true }) with
      | ub => rfl
      | fuel => rfl
      | ok t =>
        obtain ⟨d1, x1, r1, w1⟩ := t
        rw [hx] at hA
        simp only [Res.ok_bind] at hA ⊢
        by_cases hr : r1 ≠ 0
        · rw [if_pos hr, if_pos hr]; rfl
        · rw [if_neg hr] at hA
          rw [if_neg hr, if_neg hr]
          have hw := storeBytes_word (c := c) (v := { preVar c d v with hasVar := true }) key bs (by
            intro n hn
            refine (hA n fun d' x' v' r h => ?_).page
            obtain ⟨w, h3, h4⟩ := Res.bind_eq_ok h
            have h5 := hn w h3
            simp only [Res.ok.injEq, Prod.mk.injEq] at h4
            obtain ⟨-, -, rfl, -⟩ := h4
            split_ifs
            · exact le_trans h5 (flushVar_loc _)
            · exact h5)
          rw [hw]
          cases hs : storeBytes c { preVar c d v with hasVar := true } key bs with
          | ub => rfl
          | fuel => rfl
          | ok w =>
            rw [hs] at hA
            simp only [Res.ok_bind, wordRes] at hA ⊢
            by_cases hrl : c.rlc = true
            · simp only [if_pos hrl] at hA ⊢
              rw [flushVar_word]
              · rfl
              · refine (hA _ fun d' x' v' r h => ?_).page
                simp only [Res.ok.injEq, Prod.mk.injEq] at h
                obtain ⟨-, -, rfl, -⟩ := h
                exact flushVar_loc _
            · simp only [if_neg hrl]
              rfl
  · unfold putVar32 putVar
    rw [if_neg hu, if_neg hu]
    rfl

theorem flushV_loc {d d' : Data} {x x' : Idx} {v' : Var} {r : Int} (h : flushV c d x v = .ok (d', x', v', r)) : v.loc ≤ v'.loc := by
  unfold flushV at h
  obtain ⟨⟨d1, x1, r1, w1⟩, -, h2⟩ := Res.bind_eq_ok h
  simp only at h2
  split_ifs at h2
  · simp only [Res.ok.injEq, Prod.mk.injEq] at h2
    obtain ⟨-, -, rfl, -⟩ := h2
    exact flushVar_loc _
  · simp only [Res.ok.injEq, Prod.mk.injEq] at h2
    obtain ⟨-, -, rfl, -⟩ := h2
    exact le_rfl

theorem flushV_word (d : Data) (x : Idx) (h : Agree c v.loc) : flushV32 c d x v.word = wordStep (flushV c d x v) := by
  unfold flushV32 flushV
  cases flushX c d x with
  | ub => rfl
  | fuel => rfl
  | ok t =>
    obtain ⟨d1, x1, r1, w1⟩ := t
    simp only [Res.ok_bind]
    by_cases hr : r1 = 0 ∧ w1 = true
    · simp only [if_pos hr]
      rw [flushVar_word h.page]
      rfl
    · simp only [if_neg hr]
      rfl

/-! ### Streams -/

/-- The stream whose offset is kept in 32 bits. -/
def Stream.word (st : Stream) : Stream := { st with off := w32 st.off }

theorem dvd_page (hd : c.numVar * c.pageSize ∣ 2 ^ 32) (n : Nat) : w32 n / c.pageSize % c.numVar = n / c.pageSize % c.numVar := by
  have h1 : ∀ m : Nat, m / c.pageSize % c.numVar = m % (c.numVar * c.pageSize) / c.pageSize := by
    intro m
    rw [Nat.mul_comm, Nat.mod_mul_right_div_self]
  rw [h1, h1, (agree_dvd c hd n).2]

theorem readVar_loc (v : Var) (ph : Nat) : (readVar v ph).1.loc = v.loc := by
  unfold readVar
  split_ifs
  · rfl
  · cases v.dev.file ph <;> rfl

/-- What `embedDBSetupVarDataStream` returns, in 32 bits. -/
def wordSetup : Res (Var × Int × Option Stream) → Res (Var × Int × Option Stream)
  | .ok (v, r, st) => .ok (v.word, r, st)
  | .ub => .ub
  | .fuel => .fuel

theorem setupStream_word (hd : c.numVar * c.pageSize ∣ 2 ^ 32) (hF : c.numVar * c.pageSize < 2 ^ 32) (h0 : 0 < c.numVar * c.pageSize)
    (d : Data) (key i : Nat) : setupStream32 c d v.word key i = wordSetup (setupStream c d v key i) := by
  have ha := fun n => (agree_dvd c hd n).2
  unfold setupStream32 setupStream
  simp only [readVar_word, show v.word.minRec = v.minRec from rfl, inFile_eq hF h0, ha, Res.ok_bind]
  split_ifs <;> simp only [wordSetup, Res.ok_bind] <;> rfl

/-- What `embedDBVarDataStreamRead` returns, in 32 bits. -/
def wordRead : Res (Var × Stream × List Byte) → Res (Var × Stream × List Byte)
  | .ok (v, st, bs) => .ok (v.word, st.word, bs)
  | .ub => .ub
  | .fuel => .fuel

theorem streamLoop_word (hd : c.numVar * c.pageSize ∣ 2 ^ 32) (len : Nat) : ∀ (f : Nat) (v : Var) (st : Stream) (pg : Nat) (acc : List Byte),
    streamLoop32 c len f v.word st.word pg acc = wordRead (streamLoop c len f v st pg acc) := by
  intro f
  induction f with
  | zero => intro v st pg acc; rfl
  | succ f ih =>
    intro v st pg acc
    have hp := (agree_dvd c hd st.off).1
    rw [streamLoop32, streamLoop]
    simp only [show st.word.total = st.total from rfl, show st.word.read = st.read from rfl, show st.word.off = w32 st.off from rfl, hp,
      readVar_word, show v.word.rbuf = v.rbuf from rfl, w32_add]
    by_cases h1 : acc.length < len ∧ st.read < st.total
    · simp only [if_pos h1]
      generalize min (st.total - st.read) (min (c.pageSize - st.off % c.pageSize) (len - acc.length)) = n
      by_cases h2 : (acc ++ rd v.rbuf (st.off % c.pageSize) n).length < len ∧ st.read + n < st.total
      · simp only [if_pos h2]
        by_cases h3 : (readVar v ((pg + 1) % c.numVar)).2 = true
        · simp only [if_pos h3]
          have := ih (readVar v ((pg + 1) % c.numVar)).1 ⟨st.total, st.read + n, st.off + n + c.vhdr⟩ ((pg + 1) % c.numVar)
            (acc ++ rd v.rbuf (st.off % c.pageSize) n)
          exact this
        · simp only [if_neg h3]
          rfl
      · simp only [if_neg h2]
        exact ih v ⟨st.total, st.read + n, st.off + n⟩ pg (acc ++ rd v.rbuf (st.off % c.pageSize) n)
    · simp only [if_neg h1]
      rfl

theorem streamRead_word (hd : c.numVar * c.pageSize ∣ 2 ^ 32) (st : Stream) (len : Nat) :
    streamRead32 c v.word st.word len = wordRead (streamRead c v st len) := by
  unfold streamRead32 streamRead
  simp only [show st.word.off = w32 st.off from rfl, dvd_page hd, readVar_word]
  split_ifs
  · exact streamLoop_word hd len _ _ _ _ _
  · rfl

theorem setupStream_lt {d : Data} {key i : Nat} {v' : Var} {r : Int} {st : Stream} (h0 : 0 < c.numVar * c.pageSize)
    (h : setupStream c d v key i = .ok (v', r, some st)) : st.off < c.numVar * c.pageSize := by
  unfold setupStream at h
  simp only at h
  split_ifs at h
  all_goals
    simp only [Res.ok.injEq, Prod.mk.injEq, Option.some.injEq, reduceCtorEq, and_false] at h
  all_goals
    rw [← h.2.2]
    exact Nat.mod_lt _ h0

theorem setupStream_off {d : Data} {key i : Nat} {v' : Var} {r : Int} {st : Stream} (hF : c.numVar * c.pageSize < 2 ^ 32)
    (h0 : 0 < c.numVar * c.pageSize) (h : setupStream c d v key i = .ok (v', r, some st)) : st.word = st := by
  have hlt := setupStream_lt h0 h
  unfold Stream.word w32
  rw [Nat.mod_eq_of_lt (by omega)]

theorem w32_lt {n : Nat} (h : n < 2 ^ 32) : w32 n = n := Nat.mod_eq_of_lt h

/-- A file well below 4 GiB: no address of the file wraps. -/
theorem setupStream_small (hF : c.numVar * c.pageSize + c.vhdr < 2 ^ 32) (h0 : 0 < c.numVar * c.pageSize)
    (d : Data) (key i : Nat) (ha : slotLoc c d.rbuf i = noVar ∨ slotLoc c d.rbuf i + 4 < 2 ^ 32) :
    setupStream32 c d v.word key i = wordSetup (setupStream c d v key i) := by
  unfold setupStream32 setupStream
  rcases ha with ha | ha
  · simp only [ha, if_true]
    rfl
  · have h1 : ((slotLoc c d.rbuf i + 4) % (c.numVar * c.pageSize) + c.vhdr) < 2 ^ 32 := by
      have := Nat.mod_lt (slotLoc c d.rbuf i + 4) h0
      omega
    simp only [readVar_word, show v.word.minRec = v.minRec from rfl, inFile_eq (c := c) (by omega) h0, w32_lt ha, Res.ok_bind, w32_lt h1]
    split_ifs <;> simp only [wordSetup, Res.ok_bind] <;> rfl

/-- What `embedDBVarDataStreamRead` returns; the offset does not wrap. -/
def wordRead' : Res (Var × Stream × List Byte) → Res (Var × Stream × List Byte)
  | .ok (v, st, bs) => .ok (v.word, st, bs)
  | .ub => .ub
  | .fuel => .fuel

theorem streamLoop_small (hp : 0 < c.pageSize) (len : Nat) : ∀ (f : Nat) (v : Var) (st : Stream) (pg : Nat) (acc : List Byte),
    st.off + (st.total - st.read) * (1 + c.vhdr) < 2 ^ 32 →
    streamLoop32 c len f v.word st pg acc = wordRead' (streamLoop c len f v st pg acc) := by
  intro f
  induction f with
  | zero => intro v st pg acc _; rfl
  | succ f ih =>
    intro v st pg acc hs
    rw [streamLoop32, streamLoop]
    simp only [readVar_word, show v.word.rbuf = v.rbuf from rfl]
    by_cases h1 : acc.length < len ∧ st.read < st.total
    · simp only [if_pos h1]
      have hm := Nat.mod_lt st.off hp
      have hn0 : 0 < min (st.total - st.read) (min (c.pageSize - st.off % c.pageSize) (len - acc.length)) := by omega
      have hn1 : min (st.total - st.read) (min (c.pageSize - st.off % c.pageSize) (len - acc.length)) ≤ st.total - st.read := by omega
      generalize min (st.total - st.read) (min (c.pageSize - st.off % c.pageSize) (len - acc.length)) = n at hn0 hn1 ⊢
      obtain ⟨m, hm⟩ : ∃ m, st.total - st.read = n + m := ⟨st.total - st.read - n, by omega⟩
      have hmul : n * 1 + 1 * c.vhdr + m * (1 + c.vhdr) ≤ (n + m) * (1 + c.vhdr) := by
        have : 1 * c.vhdr ≤ n * c.vhdr := Nat.mul_le_mul_right _ hn0
        nlinarith
      rw [hm] at hs
      have e1 : st.total - (st.read + n) = m := by omega
      have w1 : w32 (st.off + n) = st.off + n := w32_lt (by omega)
      have w2 : w32 (st.off + n + c.vhdr) = st.off + n + c.vhdr := w32_lt (by omega)
      simp only [w1, w2]
      by_cases h2 : (acc ++ rd v.rbuf (st.off % c.pageSize) n).length < len ∧ st.read + n < st.total
      · simp only [if_pos h2]
        by_cases h3 : (readVar v ((pg + 1) % c.numVar)).2 = true
        · simp only [if_pos h3]
          exact ih (readVar v ((pg + 1) % c.numVar)).1 ⟨st.total, st.read + n, st.off + n + c.vhdr⟩ ((pg + 1) % c.numVar)
            (acc ++ rd v.rbuf (st.off % c.pageSize) n) (by simp only; rw [e1]; omega)
        · simp only [if_neg h3]
          rfl
      · simp only [if_neg h2]
        exact ih v ⟨st.total, st.read + n, st.off + n⟩ pg (acc ++ rd v.rbuf (st.off % c.pageSize) n) (by simp only; rw [e1]; omega)
    · simp only [if_neg h1]
      rfl

/-- What reading a stream completely returns, in 32 bits. -/
def wordAll : Res (Var × Option (List Byte)) → Res (Var × Option (List Byte))
  | .ok (v, bs) => .ok (v.word, bs)
  | .ub => .ub
  | .fuel => .fuel

theorem readAll_word (hd : c.numVar * c.pageSize ∣ 2 ^ 32) (v : Var) (st : Option Stream) (hw : ∀ s, st = some s → s.word = s) :
    readAll32 c v.word st = wordAll (readAll c v st) := by
  cases st with
  | none => rfl
  | some s =>
    unfold readAll32 readAll
    have := streamRead_word (v := v) hd s s.total
    rw [hw s rfl] at this
    simp only [this]
    cases streamRead c v s s.total with
    | ub => rfl
    | fuel => rfl
    | ok t => rfl

theorem readAll_small (hp : 0 < c.pageSize) (v : Var) (st : Stream) (hs : st.off + (st.total - st.read) * (1 + c.vhdr) < 2 ^ 32) :
    readAll32 c v.word (some st) = wordAll (readAll c v (some st)) := by
  unfold readAll32 readAll streamRead32 streamRead
  simp only [readVar_word]
  by_cases h : (readVar v (st.off / c.pageSize % c.numVar)).2 = true
  · simp only [if_pos h]
    rw [streamLoop_small hp _ _ _ _ _ _ hs]
    cases streamLoop c st.total (st.total + 2) (readVar v (st.off / c.pageSize % c.numVar)).1 st (st.off / c.pageSize % c.numVar) [] with
    | ub => rfl
    | fuel => rfl
    | ok t => rfl
  · simp only [if_neg h]
    rfl

/-- `getVar` followed by reading the stream, in 32 bits. -/
theorem lookup_word (hd : c.numVar * c.pageSize ∣ 2 ^ 32) (hF : c.numVar * c.pageSize < 2 ^ 32) (h0 : 0 < c.numVar * c.pageSize)
    (d : Data) (x : Idx) (key : Nat) : stepV32 c d x v.word (.getVar key) = wordStep (stepV c d x v (.getVar key)) := by
  have key1 : ∀ (d2 : Data) (u : Var) (i : Nat) (out : Option (List Byte)),
      ((do
        let __x ← setupStream32 c d2 u.word key i
        Res.ok (d2, __x.1, getCode __x.2.1, out, __x.2.2)) >>= fun __x => do
          let __y ← readAll32 c __x.2.1 __x.2.2.2.2
          Res.ok (__x.1, x, __y.1, VOut.gotVar __x.2.2.1 __x.2.2.2.1 __y.2)) =
      wordStep ((do
        let __x ← setupStream c d2 u key i
        Res.ok (d2, __x.1, getCode __x.2.1, out, __x.2.2)) >>= fun __x => do
          let __y ← readAll c __x.2.1 __x.2.2.2.2
          Res.ok (__x.1, x, __y.1, VOut.gotVar __x.2.2.1 __x.2.2.2.1 __y.2)) := by
    intro d2 u i out
    rw [setupStream_word hd hF h0]
    cases hs : setupStream c d2 u key i with
    | ub => rfl
    | fuel => rfl
    | ok t =>
      obtain ⟨v1, r1, st⟩ := t
      simp only [wordSetup, Res.ok_bind]
      rw [readAll_word hd v1 st (fun s hst => by subst hst; exact setupStream_off hF h0 hs)]
      cases readAll c v1 st with
      | ub => rfl
      | fuel => rfl
      | ok t => rfl
  unfold stepV32 stepV getVar32 getVar
  simp only
  by_cases hu : c.useVdata = true
  · simp only [if_pos hu]
    cases searchBuffer c d.wbuf key with
    | ub => rfl
    | fuel => rfl
    | ok t =>
      obtain ⟨r, out⟩ := t
      simp only [Res.ok_bind]
      by_cases h1 : r ≠ -1
      · simp only [if_pos h1]
        by_cases h2 : r < 0
        · simp only [if_pos h2]; rfl
        · simp only [if_neg h2]
          rw [flushVar_word (agree_dvd c hd _).page]
          exact key1 _ _ _ _
      · simp only [if_neg h1]
        cases get c d key with
        | ub => rfl
        | fuel => rfl
        | ok t =>
          obtain ⟨d1, r1, out1⟩ := t
          simp only [Res.ok_bind]
          by_cases h3 : r1 = 0
          · simp only [if_pos h3]
            cases searchNode c d1.rbuf key with
            | ub => rfl
            | fuel => rfl
            | ok o =>
              simp only [Res.ok_bind]
              cases o with
              | none => rfl
              | some i =>
                simp only
                by_cases h4 : toInt8 i < 0
                · simp only [if_pos h4]; rfl
                · simp only [if_neg h4]
                  exact key1 _ _ _ _
          · simp only [if_neg h3]
            rfl
  · simp only [if_neg hu]
    rfl

/-! ### Whole histories -/

/-- An operation that does not read variable data. -/
def NoStream : VOp → Prop
  | .getVar _ => False
  | _ => True

theorem stepV_loc {d d' : Data} {x x' : Idx} {v' : Var} {op : VOp} {o : VOut} (hn : NoStream op)
    (h : stepV c d x v op = .ok (d', x', v', o)) : v.loc ≤ v'.loc := by
  cases op with
  | put k a b =>
    obtain ⟨⟨d1, x1, v1, r1⟩, h1, h2⟩ := Res.bind_eq_ok h
    simp only [Res.ok.injEq, Prod.mk.injEq] at h2
    obtain ⟨-, -, rfl, -⟩ := h2
    exact (putVar_loc h1).1
  | flush =>
    obtain ⟨⟨d1, x1, v1, r1⟩, h1, h2⟩ := Res.bind_eq_ok h
    simp only [Res.ok.injEq, Prod.mk.injEq] at h2
    obtain ⟨-, -, rfl, -⟩ := h2
    exact flushV_loc h1
  | get k =>
    obtain ⟨⟨d1, r1, o1⟩, -, h2⟩ := Res.bind_eq_ok h
    simp only [Res.ok.injEq, Prod.mk.injEq] at h2
    obtain ⟨-, -, rfl, -⟩ := h2
    exact le_rfl
  | getVar k => exact absurd hn (by simp [NoStream])

/-- One operation.  `hA`: the position up to which the operation leads can be computed from the lower 32 bits. -/
theorem stepV_word (hF : c.numVar * c.pageSize < 2 ^ 32) (h0 : 0 < c.numVar * c.pageSize) (d : Data) (x : Idx) (op : VOp)
    (hn : NoStream op ∨ c.numVar * c.pageSize ∣ 2 ^ 32)
    (hA : ∀ n, (∀ d' x' v' o, stepV c d x v op = .ok (d', x', v', o) → n ≤ v'.loc) → Agree c n) :
    stepV32 c d x v.word op = wordStep (stepV c d x v op) := by
  cases op with
  | put k a b =>
    unfold stepV32
    unfold stepV at hA ⊢
    simp only at hA ⊢
    rw [putVar_word hF h0 d x k a b (fun n hn => hA n fun d' x' v' o h => by
      obtain ⟨⟨d1, x1, v1, r1⟩, h1, h2⟩ := Res.bind_eq_ok h
      simp only [Res.ok.injEq, Prod.mk.injEq] at h2
      obtain ⟨-, -, rfl, -⟩ := h2
      exact hn _ _ _ _ h1)]
    cases putVar c d x v k a b <;> rfl
  | flush =>
    have a0 : Agree c v.loc := hA _ fun d' x' v' o h => stepV_loc (op := .flush) trivial h
    unfold stepV32 stepV
    simp only
    rw [flushV_word d x a0]
    cases flushV c d x v <;> rfl
  | get k =>
    unfold stepV32 stepV
    simp only
    cases get c d k <;> rfl
  | getVar k =>
    rcases hn with h | h
    · exact absurd h (by simp [NoStream])
    · exact lookup_word h hF h0 d x k

/-- A file size that divides 2^32: every history is that of the unbounded position. -/
theorem historyV_word (hd : c.numVar * c.pageSize ∣ 2 ^ 32) (hF : c.numVar * c.pageSize < 2 ^ 32) (h0 : 0 < c.numVar * c.pageSize) :
    ∀ (ops : List VOp) (d : Data) (x : Idx) (v : Var), historyV32 c d x v.word ops = historyV c d x v ops := by
  intro ops
  induction ops with
  | nil => intro d x v; rfl
  | cons op ops ih =>
    intro d x v
    rw [historyV32, historyV, stepV_word hF h0 d x op (Or.inr hd) (fun n _ => agree_dvd c hd n)]
    cases stepV c d x v op with
    | ub => rfl
    | fuel => rfl
    | ok t =>
      obtain ⟨d1, x1, v1, o⟩ := t
      simp only [wordStep]
      rw [ih]

theorem runOpsV_loc {ops : List VOp} : ∀ {d d' : Data} {x x' : Idx} {v v' : Var}, (∀ op ∈ ops, NoStream op) →
    runOpsV c d x v ops = .ok (d', x', v') → v.loc ≤ v'.loc := by
  induction ops with
  | nil =>
    intro d d' x x' v v' _ h
    rw [runOpsV] at h
    simp only [Res.ok.injEq, Prod.mk.injEq] at h
    rw [h.2.2]
  | cons op ops ih =>
    intro d d' x x' v v' hn h
    rw [runOpsV] at h
    obtain ⟨⟨d1, x1, v1, o⟩, h1, h2⟩ := Res.bind_eq_ok h
    exact le_trans (stepV_loc (hn op List.mem_cons_self) h1) (ih (fun o ho => hn o (List.mem_cons_of_mem _ ho)) h2)

/-- While the position is below 2^32 both versions are in the same state. -/
theorem runOpsV_word (hF : c.numVar * c.pageSize < 2 ^ 32) (h0 : 0 < c.numVar * c.pageSize) :
    ∀ (ops : List VOp) (d d' : Data) (x x' : Idx) (v v' : Var), (∀ op ∈ ops, NoStream op) →
      runOpsV c d x v ops = .ok (d', x', v') → v'.loc < 2 ^ 32 →
      runOpsV32 c d x v ops = .ok (d', x', v') ∧ historyV32 c d x v ops = historyV c d x v ops := by
  have hw : ∀ v : Var, v.loc < 2 ^ 32 → v.word = v := by
    intro v h
    unfold Var.word w32
    rw [Nat.mod_eq_of_lt h]
  intro ops
  induction ops with
  | nil => intro d d' x x' v v' _ h _; exact ⟨h, rfl⟩
  | cons op ops ih =>
    intro d d' x x' v v' hn h hlt
    have hall := runOpsV_loc hn h
    rw [runOpsV] at h
    obtain ⟨⟨d1, x1, v1, o⟩, h1, h2⟩ := Res.bind_eq_ok h
    have hn' : ∀ o ∈ ops, NoStream o := fun o ho => hn o (List.mem_cons_of_mem _ ho)
    have l1 := runOpsV_loc hn' h2
    have hs := stepV_word (v := v) hF h0 d x op (Or.inl (hn op List.mem_cons_self)) (fun n h => agree_below c (by
      have := h _ _ _ _ h1
      omega))
    rw [hw v (by omega), h1] at hs
    simp only [wordStep] at hs
    rw [hw v1 (by omega)] at hs
    obtain ⟨i1, i2⟩ := ih d1 d' x1 x' v1 v' hn' h2 hlt
    rw [runOpsV32, historyV32, historyV, hs, h1]
    exact ⟨i1, by simp only; rw [i2]⟩

end

end EDB
