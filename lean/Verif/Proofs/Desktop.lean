import Verif.Model.Desktop
import Verif.Spec.PageStore
import Verif.Proofs.Life
import Verif.Proofs.Always
import Mathlib.Tactic.SplitIfs
import Mathlib.Tactic.Ring
import Mathlib.Data.List.Induction

/-! Helper lemmas: pages in a file of bytes. -/

namespace EDB

open Spec (Log Op Out PageStore)

theorem pread_get (f : List Byte) (o n i : Nat) : (pread f o n)[i]? = if i < n then f[o + i]? else none := by
  unfold pread
  rw [List.getElem?_take, List.getElem?_drop]

theorem pread_length (f : List Byte) (o n : Nat) : (pread f o n).length = min n (f.length - o) := by
  simp [pread]

theorem pwrite_length (f : List Byte) (o : Nat) (bs : List Byte) :
    (pwrite f o bs).length = max f.length (o + bs.length) := by
  simp only [pwrite, List.length_append, List.length_take, List.length_replicate, List.length_drop]
  omega

theorem pwrite_get (f : List Byte) (o : Nat) (bs : List Byte) (i : Nat) :
    (pwrite f o bs)[i]? =
      if i < o then (if i < f.length then f[i]? else some 0)
      else if i < o + bs.length then bs[i - o]? else f[i]? := by
  unfold pwrite
  by_cases h1 : i < o
  · rw [if_pos h1, List.append_assoc, List.append_assoc]
    by_cases h2 : i < f.length
    · rw [if_pos h2, List.getElem?_append_left (by simp; omega), List.getElem?_take, if_pos h1]
    · rw [if_neg h2, List.getElem?_append_right (by simp; omega), List.getElem?_append_left (by simp; omega),
        List.getElem?_replicate, if_pos (by simp; omega)]
  · rw [if_neg h1]
    have hl : (List.take o f ++ List.replicate (o - f.length) 0).length = o := by simp; omega
    by_cases h2 : i < o + bs.length
    · rw [if_pos h2, List.getElem?_append_left (by rw [List.length_append, hl]; omega),
        List.getElem?_append_right (by rw [hl]; omega), hl]
    · rw [if_neg h2, List.getElem?_append_right (by rw [List.length_append, hl]; omega), List.getElem?_drop,
        List.length_append, hl]
      congr 1
      omega

/-- Reading the page just written. -/
theorem pread_pwrite_same (f bs : List Byte) (o : Nat) : pread (pwrite f o bs) o bs.length = bs := by
  apply List.ext_getElem?
  intro i
  rw [pread_get, pwrite_get]
  by_cases h : i < bs.length
  · rw [if_pos h, if_neg (by omega), if_pos (by omega), Nat.add_sub_cancel_left]
  · rw [if_neg h, List.getElem?_eq_none (by omega)]

/-- Reading elsewhere in the old file. -/
theorem pread_pwrite_other (f bs : List Byte) (o p n : Nat) (hp : p + n ≤ f.length) (hd : p + n ≤ o ∨ o + bs.length ≤ p) :
    pread (pwrite f o bs) p n = pread f p n := by
  apply List.ext_getElem?
  intro i
  rw [pread_get, pread_get, pwrite_get]
  by_cases h : i < n
  · rw [if_pos h, if_pos h]
    by_cases h1 : p + i < o
    · rw [if_pos h1, if_pos (by omega)]
    · rw [if_neg h1, if_neg (by omega)]
  · rw [if_neg h, if_neg h]

/-- Reading the gap left by a write behind the end. -/
theorem pread_pwrite_gap (f bs : List Byte) (o p n : Nat) (hp : f.length ≤ p) (hd : p + n ≤ o) :
    pread (pwrite f o bs) p n = List.replicate n 0 := by
  apply List.ext_getElem?
  intro i
  rw [pread_get, pwrite_get, List.getElem?_replicate]
  by_cases h : i < n
  · rw [if_pos h, if_pos h, if_pos (by omega), if_neg (by omega)]
  · rw [if_neg h, if_neg h]

/-- Reading behind the end. -/
theorem pread_end (f : List Byte) (o n : Nat) (h : f.length ≤ o) : pread f o n = [] := by
  apply List.eq_nil_of_length_eq_zero
  rw [pread_length]
  omega

theorem pread_inside (f : List Byte) (o p n m : Nat) (h1 : o + p + n ≤ o + m) :
    pread (pread f o m) p n = pread f (o + p) n := by
  apply List.ext_getElem?
  intro i
  rw [pread_get, pread_get, pread_get]
  by_cases h : i < n
  · rw [if_pos h, if_pos h, if_pos (by omega), Nat.add_assoc]
  · rw [if_neg h, if_neg h]

/-! ### Files that hold `k` pages -/

/-- The file consists of the first `k` pages of the store, which are all that can be read. -/
structure PagesHeld (sz : Nat) (f : List Byte) (k : Nat) (s : PageStore) : Prop where
  len : f.length = sz * k
  page : ∀ i, i < k → s i = some (pread f (sz * i) sz)
  none : ∀ i, k ≤ i → s i = none

theorem mul_lt_page {sz m k : Nat} (h : m < k) : sz * m + sz ≤ sz * k := by
  rw [show sz * m + sz = sz * (m + 1) by ring]
  exact Nat.mul_le_mul_left _ h

variable {sz : Nat} {f : List Byte} {k : Nat} {s : PageStore}

theorem PagesHeld.nil : PagesHeld sz [] 0 fun _ => Option.none := ⟨by simp, by intro i h; omega, fun _ _ => rfl⟩

theorem PagesHeld.read (H : PagesHeld sz f k s) (h0 : 0 < sz) {n : Nat} (hn : sz * n < 2 ^ 32) (buf : List Byte) (hb : buf.length = sz) :
    fileRead f buf n sz = s.read n buf := by
  unfold fileRead PageStore.read byteOff
  rw [Nat.mod_eq_of_lt hn]
  rcases Nat.lt_or_ge n k with h | h
  · have hl : (pread f (sz * n) sz).length = sz := by
      have := mul_lt_page (sz := sz) h
      rw [pread_length, H.len]; omega
    rw [H.page n h]
    simp only [hl]
    rw [if_pos ⟨trivial, h0⟩, List.drop_eq_nil_of_le (by omega), List.append_nil]
  · rw [H.none n h]
    have hl : pread f (sz * n) sz = [] := pread_end _ _ _ (by rw [H.len]; exact Nat.mul_le_mul_left _ h)
    simp only [hl, List.length_nil, List.drop_zero, List.nil_append]
    rw [if_neg (by omega)]

theorem PagesHeld.pwrite (H : PagesHeld sz f k s) {n : Nat} (hk : n ≤ k) (bs : List Byte) (hb : bs.length = sz) :
    PagesHeld sz (pwrite f (sz * n) bs) (max k (n + 1)) (s.write n bs) := by
  have hnk : sz * n ≤ sz * k := Nat.mul_le_mul_left _ hk
  refine ⟨?_, ?_, ?_⟩
  · rw [pwrite_length, H.len, hb]
    rcases Nat.lt_or_ge n k with h | h
    · have := mul_lt_page (sz := sz) h
      rw [Nat.max_eq_left (by omega), Nat.max_eq_left (by omega)]
    · have : n = k := by omega
      subst this
      rw [Nat.max_eq_right (by omega), Nat.max_eq_right (by omega)]
      ring
  · intro i hi
    unfold PageStore.write
    split_ifs with h
    · subst h
      rw [← hb, pread_pwrite_same]
    · have hik : i < k := by omega
      have hi' := mul_lt_page (sz := sz) hik
      rw [H.page i hik, pread_pwrite_other _ _ _ _ _ (by rw [H.len]; omega)]
      rcases Nat.lt_or_ge i n with h1 | h1
      · left; exact mul_lt_page h1
      · right; rw [hb]; exact mul_lt_page (by omega)
  · intro i hi
    unfold PageStore.write
    rw [if_neg (by omega), H.none i (by omega)]

theorem PagesHeld.write (H : PagesHeld sz f k s) {n : Nat} (hn : sz * n < 2 ^ 32) (hk : n ≤ k) (bs : List Byte) (hb : bs.length = sz) :
    PagesHeld sz (fileWrite f bs n sz) (max k (n + 1)) (s.write n bs) := by
  unfold fileWrite byteOff
  rw [Nat.mod_eq_of_lt hn]
  exact H.pwrite hk bs hb

theorem PagesHeld.erase (H : PagesHeld sz f k s) {lo hi : Nat} (hk : sz * k < 2 ^ 32) (h1 : lo < hi) (h2 : hi ≤ k) :
    PagesHeld sz (mockErase f lo hi sz) k (fun i => if lo ≤ i ∧ i < hi then some (List.replicate sz 1) else s i) := by
  unfold mockErase byteOff
  have e1 : sz * lo + (hi - lo) * sz = sz * hi := by
    rw [Nat.mul_comm (hi - lo), ← Nat.mul_add]; congr 1; omega
  have e2 : sz * hi ≤ sz * k := Nat.mul_le_mul_left _ h2
  rw [Nat.mod_eq_of_lt (show sz * lo < 2 ^ 32 by omega), Nat.mod_eq_of_lt (show (hi - lo) * sz < 2 ^ 32 by omega)]
  have hlen : (List.replicate ((hi - lo) * sz) (1 : Byte)).length = (hi - lo) * sz := List.length_replicate
  refine ⟨?_, ?_, ?_⟩
  · rw [pwrite_length, H.len, hlen, e1, Nat.max_eq_left e2]
  · intro i hi'
    have hik := mul_lt_page (sz := sz) hi'
    split_ifs with h
    · have a1 : sz * lo ≤ sz * i := Nat.mul_le_mul_left _ h.1
      have a2 := mul_lt_page (sz := sz) h.2
      congr 1
      apply List.ext_getElem?
      intro j
      rw [pread_get, pwrite_get, hlen, List.getElem?_replicate]
      by_cases hj : j < sz
      · rw [if_pos hj, if_pos hj, if_neg (by omega), if_pos (by omega), List.getElem?_replicate, if_pos (by omega)]
      · rw [if_neg hj, if_neg hj]
    · rw [H.page i hi', pread_pwrite_other _ _ _ _ _ (by rw [H.len]; omega)]
      rw [hlen, e1]
      rcases Nat.lt_or_ge i lo with h3 | h3
      · left; exact mul_lt_page h3
      · right; exact Nat.mul_le_mul_left _ (by omega)
  · intro i hi'
    rw [if_neg (by omega), H.none i hi']

theorem holds_pagesIn (h0 : 0 < sz) (hd : sz ∣ f.length) : PagesHeld sz f (f.length / sz) (Spec.pagesIn sz f) := by
  obtain ⟨k, hk⟩ := hd
  rw [hk, Nat.mul_div_cancel_left _ h0]
  refine ⟨hk, ?_, ?_⟩
  · intro i hi
    have := mul_lt_page (sz := sz) hi
    unfold Spec.pagesIn pread
    rw [if_pos (by rw [hk, Nat.add_mul, Nat.mul_comm i]; omega), Nat.mul_comm i]
  · intro i hi
    have := mul_lt_page (sz := sz) (show k < i + 1 by omega)
    unfold Spec.pagesIn
    rw [if_neg (by rw [hk, Nat.mul_comm]; omega)]

theorem PagesHeld.pagesIn (h0 : 0 < sz) (H : PagesHeld sz f k s) : Spec.pagesIn sz f = s := by
  have H' := holds_pagesIn h0 (Dvd.intro _ H.len.symm)
  rw [H.len, Nat.mul_div_cancel_left _ h0] at H'
  funext i
  rcases Nat.lt_or_ge i k with h | h
  · rw [H.page i h, H'.page i h]
  · rw [H.none i h, H'.none i h]

/-! ### The operations of a table -/

/-- The bytes of the pages of an image. -/
def storeOf (sz : Nat) (file : Nat → Option Page) : PageStore := fun i => (file i).map fun p => rd p 0 sz

theorem rd_ones (sz : Nat) : rd (onesPage sz) 0 sz = List.replicate sz 1 := by
  apply List.ext_getElem?
  intro i
  simp only [rd, List.getElem?_map, List.getElem?_replicate, Nat.zero_add]
  by_cases h : i < sz
  · simp [h, onesPage]
  · simp [h]

theorem writes_length_snoc (log : List Ev) (ph : Nat) (p : Page) :
    (Spec.writes (log ++ [.write ph p])).length = (Spec.writes log).length + 1 := by
  rw [writes_append, List.length_append]; rfl

theorem writes_length_erase (log : List Ev) (lo hi : Nat) :
    (Spec.writes (log ++ [.erase lo hi])).length = (Spec.writes log).length := by
  rw [writes_append, List.length_append]; rfl

theorem desk_snoc (sz : Nat) (mock : Bool) (log : List Ev) (e : Ev) :
    desk sz mock (log ++ [e]) = deskEv sz mock (desk sz mock log) e := by
  unfold desk
  rw [List.foldl_append]
  rfl

/-- What the two desktop interfaces do to a page that is erased. -/
def deskErase (sz : Nat) (mock : Bool) : Option Page → Option Page :=
  if mock then Option.map fun _ => onesPage sz else id

variable {c : Cfg}

/-- The bytes produced by the operations of a table are those of its image. -/
theorem GoodLog.holds (hB : 0 < c.B) (hd : c.B ∣ c.N) (hN : 0 < c.N) {mock : Bool} (hE : c.eraseFx = deskErase c.pageSize mock)
    (h32 : c.pageSize * c.N < 2 ^ 32) {log : List Ev} (h : GoodLog c log) :
    PagesHeld c.pageSize (desk c.pageSize mock log) (min (Spec.writes log).length c.N)
      (storeOf c.pageSize (Spec.image c.eraseFx log)) := by
  induction h with
  | nil => exact PagesHeld.nil
  | @write log h p hid hc ih =>
    have hlt := Nat.mod_lt (Spec.writes log).length hN
    have hle : (Spec.writes log).length % c.N ≤ min (Spec.writes log).length c.N := by
      have := Nat.mod_le (Spec.writes log).length c.N
      omega
    have h1 : c.pageSize * ((Spec.writes log).length % c.N) < 2 ^ 32 :=
      lt_of_le_of_lt (Nat.mul_le_mul_left _ hlt.le) h32
    have H := ih.write h1 hle (rd p 0 c.pageSize) (rd_length _ _ _)
    rw [desk_snoc, image_snoc, writes_length_snoc]
    have hk : min ((Spec.writes log).length + 1) c.N = max (min (Spec.writes log).length c.N) ((Spec.writes log).length % c.N + 1) := by
      rcases Nat.lt_or_ge (Spec.writes log).length c.N with h | h
      · rw [Nat.mod_eq_of_lt h]; omega
      · omega
    rw [hk]
    have hs : storeOf c.pageSize (Spec.applyEv c.eraseFx (Spec.image c.eraseFx log) (.write ((Spec.writes log).length % c.N) p)) =
        (storeOf c.pageSize (Spec.image c.eraseFx log)).write ((Spec.writes log).length % c.N) (rd p 0 c.pageSize) := by
      funext i
      unfold storeOf PageStore.write
      simp only [Spec.applyEv]
      split_ifs <;> rfl
    rw [hs]
    exact H
  | @erase log h h1 h2 ih =>
    have hend := block_end hd hN h2
    rw [desk_snoc, image_snoc, writes_length_erase]
    have hmin : min (Spec.writes log).length c.N = c.N := by omega
    rw [hmin] at ih ⊢
    cases mock with
    | false =>
      have hs : storeOf c.pageSize (Spec.applyEv c.eraseFx (Spec.image c.eraseFx log)
          (.erase ((Spec.writes log).length % c.N) ((Spec.writes log).length % c.N + c.B))) =
          storeOf c.pageSize (Spec.image c.eraseFx log) := by
        funext i
        unfold storeOf
        simp only [Spec.applyEv, hE, deskErase]
        simp
      rw [hs]
      exact ih
    | true =>
      have H := ih.erase h32 (show (Spec.writes log).length % c.N < (Spec.writes log).length % c.N + c.B by omega) (by omega)
      have hs : storeOf c.pageSize (Spec.applyEv c.eraseFx (Spec.image c.eraseFx log)
          (.erase ((Spec.writes log).length % c.N) ((Spec.writes log).length % c.N + c.B))) =
          fun i => if (Spec.writes log).length % c.N ≤ i ∧ i < (Spec.writes log).length % c.N + c.B then
            some (List.replicate c.pageSize 1) else storeOf c.pageSize (Spec.image c.eraseFx log) i := by
        funext i
        unfold storeOf
        simp only [Spec.applyEv]
        split_ifs with h
        · have := ih.page i (by omega)
          unfold storeOf at this
          rw [Option.map_eq_some_iff] at this
          obtain ⟨q, hq, _⟩ := this
          rw [hq, hE]
          simp [deskErase, rd_ones]
        · rfl
      rw [hs]
      exact H

/-- Only pages whose bytes lie within the page size are ever written. -/
theorem Life.within {lo K P : Nat} {d : Data} {L : Log} (hok : c.Ok K) (hB : Bounds c lo K P) (hP32 : P ≤ 2 ^ 32)
    (h127 : c.maxRec ≤ 127) (hN32 : c.N < 2 ^ 32) (hE : Eraser c P) (hs : c.maxErr ≤ 1 ∨ P ≤ c.N) (hP0 : 0 < P)
    (h : Life c lo K P d L) : InBounds c d := by
  induction h with
  | new rb sm => exact InBounds.fresh hok rb sm
  | @op d d' L x x' op o h e hput hP ih => exact ih.step hok (fun k v hk => (hput k v hk).2.2.1) e
  | @cut d d' L h k rb sm hz e ih =>
    obtain ⟨J, hlt, m, hm, hd, T⟩ := h.ok hok hB hP32 h127 hN32 hE hs hP0
    have hn : d.next = _ := T.sim.next
    obtain ⟨d2, n, g1, g2, g3, g4, g5, g6, g7, g8, g9, g10⟩ := reopen_ok hok hB hP32 h127 hN32 hE J
      T.sim.sorted T.sim.bound T.sim.full T.cap (by omega) k hz rb sm
    rw [g1] at e
    simp only [Prod.mk.injEq, and_true] at e
    subst e
    have hz' : Spec.recovered c.N c.B n = 0 ∨ c.maxErr ≤ 1 := by
      rcases hs with h | h
      · exact Or.inr h
      · exact Or.inl (recovered_small (by omega))
    have hI := g4.good.imageOn (init := fun _ => none) (fun _ _ => rfl) hok.B0 hok.dvd hok.N0 hE
    refine ⟨(g10 hz').room, ?_, ?_, ?_, ?_, ?_⟩
    · rw [g8, ← recs_length c, recs_init]; exact Nat.zero_le _
    · rw [g8]; exact within_init hok
    · intro ev hev
      rw [g5] at hev
      exact ih.log ev (List.mem_of_mem_take hev)
    · intro ph p hev
      rw [g5] at hev
      exact ih.pages ph p (List.mem_of_mem_take hev)
    · intro i hi
      rw [g4.file]
      exact hI.out i hi

theorem toPage_rd {p : Page} {n : Nat} (h : Page.within p n) : toPage (rd p 0 n) = p := by
  funext i
  unfold toPage rd
  rw [List.getD_eq_getElem?_getD, List.getElem?_map]
  by_cases hi : i < n
  · simp [hi]
  · simp [hi, h i (by omega)]

theorem within_image {mock : Bool} (hE : c.eraseFx = deskErase c.pageSize mock) {log : List Ev}
    (h : ∀ ph p, Ev.write ph p ∈ log → Page.within p c.pageSize) :
    ∀ i p, Spec.image c.eraseFx log i = some p → Page.within p c.pageSize := by
  induction log using List.reverseRecOn with
  | nil => intro i p hp; cases hp
  | append_singleton log e ih =>
    have ih := ih fun ph p hp => h ph p (by simp [hp])
    intro i p hp
    rw [image_snoc] at hp
    cases e with
    | write ph q =>
      simp only [Spec.applyEv] at hp
      split_ifs at hp
      · cases hp; exact h ph p (by simp)
      · exact ih i p hp
    | erase lo hi =>
      simp only [Spec.applyEv] at hp
      split_ifs at hp
      · rw [hE] at hp
        cases mock with
        | false => exact ih i p (by rw [hE]; exact hp)
        | true =>
          simp only [deskErase, if_true, Option.map_eq_some_iff] at hp
          obtain ⟨_, _, rfl⟩ := hp
          intro j hj
          unfold onesPage
          rw [if_neg (by omega)]
      · exact ih i p hp

end EDB
