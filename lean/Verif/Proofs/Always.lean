import Verif.Proofs.Reach

/-! Helper lemmas that hold in every state, whatever the keys and whatever is in the read cache. -/

namespace EDB

open Spec (Log Range Op Out)

section
variable {c : Cfg} {K : Nat}

theorem Res.bind_eq_ok {α β : Type} {x : Res α} {f : α → Res β} {b : β} (h : (x >>= f) = .ok b) :
    ∃ a, x = .ok a ∧ f a = .ok b := by
  cases x with
  | ok a => exact ⟨a, rfl, h⟩
  | ub => cases h
  | fuel => cases h

/-! ### Reads change only the cache -/

theorem linSearch_same {key : Nat} : ∀ (f : Nat) (d : Data) (p l h : Int) (d' : Data) (b : Bool),
    linSearch c key f d p l h = .ok (d', b) → SameButCache d d' := by
  intro f
  induction f with
  | zero => intro d p l h d' b e; simp [linSearch] at e
  | succ f ih =>
    intro d p l h d' b e
    unfold linSearch at e
    split_ifs at e with h1
    · cases e; exact SameButCache.refl d
    · obtain ⟨d1, r, hr⟩ : ∃ d1 r, readPage d (p.toNat % c.N) = (d1, r) := ⟨_, _, rfl⟩
      have s1 : SameButCache d d1 := by have := readPage_same d (p.toNat % c.N); rw [hr] at this; exact this
      rw [hr] at e
      simp only at e
      split_ifs at e
      · exact s1.trans (ih _ _ _ _ _ _ e)
      · exact s1.trans (ih _ _ _ _ _ _ e)
      · cases e; exact s1
      · cases e; exact s1

theorem binSearchLoop_same {key : Nat} : ∀ (f : Nat) (d : Data) (p l h : Nat) (d' : Data) (b : Bool),
    binSearchLoop c key f d p l h = .ok (d', b) → SameButCache d d' := by
  intro f
  induction f with
  | zero => intro d p l h d' b e; simp [binSearchLoop] at e
  | succ f ih =>
    intro d p l h d' b e
    unfold binSearchLoop at e
    obtain ⟨d1, r, hr⟩ : ∃ d1 r, readPage d (h % c.N) = (d1, r) := ⟨_, _, rfl⟩
    have s1 : SameButCache d d1 := by have := readPage_same d (h % c.N); rw [hr] at this; exact this
    rw [hr] at e
    simp only at e
    split_ifs at e
    · exact s1.trans (ih _ _ _ _ _ _ e)
    · exact s1.trans (ih _ _ _ _ _ _ e)
    · cases e; exact s1
    · cases e; exact s1

theorem splineSearch_same {key : Nat} {d d' : Data} {b : Bool} (e : splineSearch c d key = .ok (d', b)) :
    SameButCache d d' := by
  unfold splineSearch at e
  obtain ⟨r, hr, e⟩ := Res.bind_eq_ok e
  simp only at e
  split_ifs at e
  · cases e; exact SameButCache.refl d
  all_goals first
    | (cases e; exact SameButCache.refl d)
    | exact linSearch_same _ _ _ _ _ _ _ e

theorem getStored_same {key : Nat} {d d' : Data} {r : Int} {out : Option (List Byte)}
    (e : getStored c d key = .ok (d', r, out)) : SameButCache d d' := by
  unfold getStored at e
  have key : ∀ {x : Res (Data × Bool)}, (∀ d1 b, x = .ok (d1, b) → SameButCache d d1) →
      (x >>= fun y => if y.2 then do
          match ← searchNode c y.1.rbuf key with
          | some i => .ok (y.1, 0, some (slotData c y.1.rbuf i))
          | none => .ok (y.1, -1, none)
        else .ok (y.1, -1, none)) = Res.ok (d', r, out) → SameButCache d d' := by
    intro x hx e
    obtain ⟨⟨d1, b⟩, h1, e⟩ := Res.bind_eq_ok e
    have s1 := hx d1 b h1
    simp only at e
    split_ifs at e
    · obtain ⟨i, _, e⟩ := Res.bind_eq_ok e
      cases i <;> (cases e; exact s1)
    · cases e; exact s1
  simp only at e
  split_ifs at e
  · exact key (fun d1 b h => binSearchLoop_same _ _ _ _ _ _ _ h) e
  · exact key (fun d1 b h => splineSearch_same h) e

theorem get_same {key : Nat} {d d' : Data} {r : Int} {out : Option (List Byte)}
    (e : get c d key = .ok (d', r, out)) : SameButCache d d' := by
  unfold get at e
  split_ifs at e
  · obtain ⟨i, _, e⟩ := Res.bind_eq_ok e
    cases e; exact SameButCache.refl d
  · cases e; exact SameButCache.refl d
  · obtain ⟨i, _, e⟩ := Res.bind_eq_ok e
    cases e; exact SameButCache.refl d
  · exact getStored_same e
  · exact getStored_same e

theorem nextLoop_same : ∀ (f : Nat) (d : Data) (x : Idx) (it : Iter) (d' : Data) (x' : Idx) (it' : Iter)
    (out : Option Rec), nextLoop c f d x it = .ok (d', x', it', out) → SameButCache d d' := by
  intro f
  induction f with
  | zero => intro d x it d' x' it' out e; simp [nextLoop] at e
  | succ f ih =>
    intro d x it d' x' it' out e
    unfold nextLoop at e
    by_cases h1 : it.page > d.next
    · rw [if_pos h1] at e
      cases e; exact SameButCache.refl d
    · rw [if_neg h1] at e
      obtain ⟨⟨x1, sk⟩, _, e⟩ := Res.bind_eq_ok e
      cases sk with
      | none => cases e; exact SameButCache.refl d
      | some sk =>
        cases sk with
        | true => exact ih _ _ _ _ _ _ _ e
        | false =>
          simp only at e
          obtain ⟨d1, r, hr⟩ : ∃ d1 r, (if it.page = d.next then (d, true) else readPage d (it.page % c.N)) = (d1, r) :=
            ⟨_, _, rfl⟩
          have s1 : SameButCache d d1 := by
            split_ifs at hr
            · cases hr; exact SameButCache.refl d
            · have := readPage_same d (it.page % c.N); rw [hr] at this; exact this
          rw [hr] at e
          simp only at e
          split_ifs at e
          all_goals first
            | (cases e; exact s1)
            | (split at e
               · exact s1.trans (ih _ _ _ _ _ _ _ e)
               · cases e; exact s1)

theorem collect_same : ∀ (f : Nat) (d : Data) (x : Idx) (it : Iter) (d' : Data) (x' : Idx) (it' : Iter)
    (out : List Rec), collect c f d x it = .ok (d', x', it', out) → SameButCache d d' := by
  intro f
  induction f with
  | zero => intro d x it d' x' it' out e; simp [collect] at e
  | succ f ih =>
    intro d x it d' x' it' out e
    unfold collect at e
    obtain ⟨⟨d1, x1, it1, o⟩, h1, e⟩ := Res.bind_eq_ok e
    have s1 := nextLoop_same _ _ _ _ _ _ _ _ h1
    cases o with
    | none => cases e; exact s1
    | some r =>
      obtain ⟨⟨d2, x2, it2, rs⟩, h2, e⟩ := Res.bind_eq_ok e
      cases e
      exact s1.trans (ih _ _ _ _ _ _ _ h2)

theorem scanAll_same {d d' : Data} {x x' : Idx} {q : Range} {rs : List Rec}
    (e : scanAll c d x q = .ok (d', x', rs)) : SameButCache d d' := by
  unfold scanAll at e
  obtain ⟨it, _, e⟩ := Res.bind_eq_ok e
  obtain ⟨⟨d2, x2, it2, rs2⟩, h2, e⟩ := Res.bind_eq_ok e
  cases e
  exact collect_same _ _ _ _ _ _ _ _ h2

theorem orderCheck_same (d : Data) (key : Nat) : SameButCache d (orderCheck c d key).1 := by
  unfold orderCheck
  simp only
  split_ifs
  · exact readPage_same _ _
  · exact SameButCache.refl d
  · exact SameButCache.refl d

/-! ### What holds in every state -/

/-- Does the event stay inside a file of `N` pages? -/
def Ev.inside (N : Nat) : Ev → Prop
  | .write ph _ => ph < N
  | .erase l h => l < h ∧ h ≤ N

/-- All bytes from offset `n` on are zero. -/
def Page.within (p : Page) (n : Nat) : Prop := ∀ i, n ≤ i → p i = 0

/-- The storage accesses so far and the buffers are within bounds. -/
structure InBounds (c : Cfg) (d : Data) : Prop where
  room : Room c d
  count : pageCount d.wbuf ≤ c.maxRec
  buf : Page.within d.wbuf c.pageSize
  log : ∀ e ∈ d.dev.log, e.inside c.N
  pages : ∀ ph p, Ev.write ph p ∈ d.dev.log → Page.within p c.pageSize
  file : ∀ i, c.N ≤ i → d.dev.file i = none

theorem InBounds.congr {d d' : Data} (I : InBounds c d) (E : SameButCache d d') : InBounds c d' :=
  ⟨I.room.congr E, by rw [E.wbuf]; exact I.count, by rw [E.wbuf]; exact I.buf, by rw [E.dev]; exact I.log,
    by rw [E.dev]; exact I.pages, by rw [E.dev]; exact I.file⟩

theorem within_wr {p : Page} {n o : Nat} {bs : List Byte} (h : Page.within p n) (hb : o + bs.length ≤ n) :
    Page.within (wr p o bs) n := by
  intro i hi
  rw [wr_apply_out _ _ _ _ (by omega)]
  exact h i hi

theorem within_init (hok : c.Ok K) : Page.within (initPage c) c.pageSize := by
  have hp := hok.page
  unfold initPage
  apply within_wr
  · apply within_wr
    · intro i _; rfl
    · rw [List.length_replicate]; omega
  · rw [List.length_replicate]; omega

/-- Slot `i` of a page ends inside the page. -/
theorem slot_end (hcap : 0 < c.maxRec) {i : Nat} (hi : i < c.maxRec) : slotOff c i + c.recSize ≤ c.pageSize := by
  have h1 : c.recSize * c.maxRec ≤ c.pageSize - c.hdr := by
    unfold Cfg.maxRec
    exact Nat.mul_div_le _ _
  have h2 : c.hdr ≤ c.pageSize := by
    by_contra h
    have : c.pageSize - c.hdr = 0 := by omega
    unfold Cfg.maxRec at hcap
    rw [this] at hcap
    simp at hcap
  have h3 : c.recSize * (i + 1) ≤ c.recSize * c.maxRec := Nat.mul_le_mul_left _ hi
  unfold slotOff
  rw [Nat.mul_add] at h3
  omega

theorem hdr_lt (hcap : 0 < c.maxRec) : c.hdr ≤ c.pageSize := by
  have := slot_end hcap hcap
  unfold slotOff at this
  omega

theorem within_append (hok : c.Ok K) {p : Page} (h : Page.within p c.pageSize) (key : Nat) (data : List Byte)
    (loc : Nat) (hd : data.length = c.dataSize) (hn : pageCount p < c.maxRec) :
    Page.within (appendRec c p key data loc) c.pageSize := by
  have hs := slot_end hok.cap hn
  have hh := hdr_lt hok.cap
  have h6 := hdr_ge c
  intro i hi
  rw [(appendRec_same hok.layout p key data loc hd).area i (by omega), appendCore_out c p key data loc hd i (by omega) (by omega)]
  exact h i hi

theorem InBounds.fresh (hok : c.Ok K) (rb : Page) (sm : Nat → Nat × Nat) : InBounds c (Data.fresh c rb sm) where
  room := ⟨dvd_zero _, by simp [Data.fresh, hok.plain]⟩
  count := by
    have : recs c (Data.fresh c rb sm).wbuf = [] := recs_init c
    rw [← recs_length c, this]; exact Nat.zero_le _
  buf := within_init hok
  log := by simp [Data.fresh]
  pages := by simp [Data.fresh]
  file := by simp [Data.fresh]

/-- An erase stays inside the file. -/
theorem erase_end (hok : c.Ok K) {d : Data} (R : Room c d) (ha : d.avail = 0) : d.next % c.N + c.B ≤ c.N := by
  have hN := hok.N0
  have hs := R.sum
  obtain ⟨n, hn⟩ := hok.dvd
  obtain ⟨m, hm⟩ := R.dvd
  have e1 : d.next = c.B * (m + n) := by rw [Nat.mul_add, ← hm, ← hn]; omega
  rw [e1, hn, Nat.mul_mod_mul_left]
  have hlt : (m + n) % n < n := Nat.mod_lt _ (by
    rcases Nat.eq_zero_or_pos n with h0 | h0
    · rw [h0] at hn; omega
    · exact h0)
  have := Nat.mul_le_mul_left c.B hlt
  rw [Nat.mul_succ] at this
  exact this

theorem InBounds.sealed (hok : c.Ok K) {d : Data} (I : InBounds c d) :
    InBounds c (EDB.sealed c d) := by
  have hN := hok.N0
  have hB := hok.B0
  have hsz : 6 ≤ c.pageSize := le_trans (hdr_ge c) (hdr_lt hok.cap)
  have hout : Page.within (outPage d) c.pageSize :=
    within_wr I.buf (by rw [leBytes_length]; omega)
  refine ⟨I.room.sealed hok.B0, by rw [sealed_count]; omega, within_init hok, ?_, ?_, ?_⟩
  · intro e he
    have he : e ∈ d.dev.log ++ (if d.avail = 0 then [Ev.erase (d.next % c.N) (d.next % c.N + c.B)] else []) ++
      [Ev.write (d.next % c.N) (outPage d)] := he
    rcases List.mem_append.mp he with he | he
    · rcases List.mem_append.mp he with he | he
      · exact I.log e he
      · split_ifs at he with ha
        · rw [List.mem_singleton.mp he]
          exact ⟨by omega, erase_end hok I.room ha⟩
        · simp at he
    · rw [List.mem_singleton.mp he]
      exact Nat.mod_lt _ hN
  · intro ph p he
    have he : Ev.write ph p ∈ d.dev.log ++ (if d.avail = 0 then [Ev.erase (d.next % c.N) (d.next % c.N + c.B)] else []) ++
      [Ev.write (d.next % c.N) (outPage d)] := he
    rcases List.mem_append.mp he with he | he
    · rcases List.mem_append.mp he with he | he
      · exact I.pages _ _ he
      · split_ifs at he with ha
        · simp at he
        · simp at he
    · simp only [List.mem_singleton, Ev.write.injEq] at he
      rw [he.2]; exact hout
  · intro i hi
    show (outDev c d).file i = none
    unfold outDev
    have := Nat.mod_lt d.next hN
    simp only
    rw [if_neg (show ¬ i = d.next % c.N by omega), if_neg, I.file i hi]
    rintro ⟨ha, _, h2⟩
    have := erase_end hok I.room ha
    omega

theorem InBounds.accepted (hok : c.Ok K) {d : Data} (I : InBounds c d) (key : Nat)
    (data : List Byte) (loc : Nat) (hd : data.length = c.dataSize) : InBounds c (EDB.accepted c d key data loc) := by
  have hcap := hok.cap
  have hcnt := accepted_count hok d key data loc hd
  have hI : InBounds c (if pageCount d.wbuf ≥ c.maxRec then EDB.sealed c d else d) := by
    split_ifs
    · exact I.sealed hok
    · exact I
  refine ⟨⟨hI.room.dvd, hI.room.sum⟩, ?_, ?_, hI.log, hI.pages, hI.file⟩
  · rw [hcnt]
    have := I.count
    split_ifs <;> omega
  · refine within_append hok hI.buf key data loc hd ?_
    split_ifs with h
    · rw [sealed_count]; exact hcap
    · omega

theorem InBounds.step (hok : c.Ok K) {d d' : Data} {x x' : Idx} {op : Op} {o : Out}
    (I : InBounds c d) (hd : ∀ k v, op = .put k v → v.length = c.dataSize)
    (e : EDB.step c d x op = .ok (d', x', o)) : InBounds c d' := by
  cases op with
  | put k v =>
    simp only [EDB.step] at e
    rw [putD_eq hok] at e
    split_ifs at e
    · cases e
      exact (I.congr (orderCheck_same d k)).accepted hok k v 0 (hd k v rfl)
    · cases e
      exact I.congr (orderCheck_same d k)
  | flush =>
    simp only [EDB.step] at e
    rw [flushD_eq hok.io hok.spline] at e
    split_ifs at e
    · cases e; exact I
    · cases e; exact I.sealed hok
  | get k =>
    simp only [EDB.step] at e
    obtain ⟨⟨d1, r, out⟩, h1, e⟩ := Res.bind_eq_ok e
    cases e
    exact I.congr (get_same h1)
  | scan q =>
    simp only [EDB.step] at e
    obtain ⟨⟨d1, x1, rs⟩, h1, e⟩ := Res.bind_eq_ok e
    cases e
    exact I.congr (scanAll_same h1)

/-! ### The order of accepted keys -/

/-- The largest key accepted so far is the last one in the write buffer. -/
def LastIs (c : Cfg) (d : Data) (acc : List Nat) : Prop :=
  pageCount d.wbuf ≤ c.maxRec ∧
  (acc = [] → pageCount d.wbuf = 0 ∧ d.next = 0) ∧
  (acc ≠ [] → pageCount d.wbuf ≠ 0 ∧ slotKey c d.wbuf (pageCount d.wbuf - 1) ∈ acc ∧
    ∀ a ∈ acc, a ≤ slotKey c d.wbuf (pageCount d.wbuf - 1))

theorem LastIs.congr {d d' : Data} {acc : List Nat} (I : LastIs c d acc) (E : SameButCache d d') : LastIs c d' acc := by
  unfold LastIs; rw [E.wbuf, E.next]; exact I

theorem append_lastKey (hok : c.Ok K) (hK : K ≤ 256 ^ c.keySize) (p : Page) (key : Nat) (hk : key < K)
    (data : List Byte) (loc : Nat) (hd : data.length = c.dataSize) (hn : pageCount p < 65535) :
    slotKey c (appendRec c p key data loc) (pageCount (appendRec c p key data loc) - 1) = key := by
  rw [append_count hok p key data loc hd hn, Nat.add_sub_cancel,
    (appendRec_same hok.layout p key data loc hd).slotKey, appendCore_key_new c p key data loc (by omega)]

theorem LastIs.accepted (hok : c.Ok K) (hK : K ≤ 256 ^ c.keySize) {d : Data} {acc : List Nat} (I : LastIs c d acc) {key : Nat} (hk : key < K)
    (data : List Byte) (loc : Nat) (hd : data.length = c.dataSize) (hgt : ∀ a ∈ acc, a < key) :
    LastIs c (EDB.accepted c d key data loc) (key :: acc) := by
  have hcap := hok.cap
  have h16 := hok.cap16
  have hcnt := accepted_count hok d key data loc hd
  have hle := I.1
  refine ⟨by rw [hcnt]; split_ifs <;> omega, by simp, fun _ => ⟨by rw [hcnt]; split_ifs <;> omega, ?_⟩⟩
  have hlast : slotKey c (EDB.accepted c d key data loc).wbuf (pageCount (EDB.accepted c d key data loc).wbuf - 1) = key := by
    unfold EDB.accepted
    simp only
    apply append_lastKey hok hK _ _ hk _ _ hd
    split_ifs
    · rw [sealed_count]; omega
    · omega
  rw [hlast]
  refine ⟨by simp, ?_⟩
  intro a ha
  rcases List.mem_cons.mp ha with h | h
  · omega
  · have := hgt a h; omega

theorem LastIs.check (hok : c.Ok K) {d : Data} {acc : List Nat} (I : LastIs c d acc) (hb : ∀ a ∈ acc, a < K)
    {key : Nat} (hk : key < K) : orderCheck c d key = (d, decide (∀ a ∈ acc, a < key)) := by
  obtain ⟨_, h1, h2⟩ := I
  unfold orderCheck
  simp only
  by_cases ha : acc = []
  · obtain ⟨h3, h4⟩ := h1 ha
    rw [if_neg (by omega), ha]
    simp
  · obtain ⟨h3, h4, h5⟩ := h2 ha
    rw [if_pos (by omega), if_neg h3]
    have hlt := hb _ h4
    congr 1
    rw [decide_eq_decide]
    rw [hok.cmp.gt _ _ hk hlt]
    constructor
    · intro h a ha
      have := h5 a ha
      omega
    · intro h; exact h _ h4

end

end EDB
