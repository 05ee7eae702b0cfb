import Verif.Proofs.VarWithin
import Verif.Props.Resume
import Verif.Props.VarUse
import Verif.Props.Interfaces

/-!
# C51 for tables with variable data: both files as bytes
-/

namespace EDB

open Spec (VLog)

/-- Read requests for pages of a file `f` of the operating system are answered as by a device with the pages `F`: the same pages
can be read, a failing read leaves the buffer alone, and the bytes read determine the whole page. -/
def ReadsAs (sz : Nat) (f : List Byte) (F : Nat → Option Page) : Prop :=
  ∀ i, sz * i < 2 ^ 32 → ∀ buf : List Byte, buf.length = sz →
    match F i with
    | some p => fileRead f buf i sz = (rd p 0 sz, 1) ∧ toPage (rd p 0 sz) = p
    | none => fileRead f buf i sz = (buf, 0)

section
variable {c : Cfg}

theorem ReadsAs.held {f : List Byte} {k : Nat} {log : List Ev} (h0 : 0 < c.pageSize) (hE : c.eraseFx = id)
    (H : PagesHeld c.pageSize f k (storeOf c.pageSize (Spec.image id log)))
    (hw : ∀ ph p, Ev.write ph p ∈ log → Page.within p c.pageSize) : ReadsAs c.pageSize f (Spec.image id log) := by
  intro i hi buf hb
  have R := H.read h0 hi buf hb
  unfold Spec.PageStore.read storeOf at R
  cases hf : Spec.image id log i with
  | none => rw [hf] at R; exact R
  | some p =>
    rw [hf] at R
    exact ⟨R, toPage_rd (within_image (c := c) (mock := false) hE hw i p (by rw [hE]; exact hf))⟩

/-- C51 for variable data files (`_partial`: the no-op erase, files below 4 GiB, the power failures of `CutOk`).  Whatever the client
called, whatever happened to the data file, which requests were refused and how often the power failed: the device of the other theorems
is what the storage operations made of it, and carrying out the first of them - any number - on a file of the operating system gives the
same answers to read requests. -/
theorem C51_var_partial (c : Cfg) (s : Trio) (hB : 0 < c.B) (hd : c.B ∣ c.numVar) (hlt : c.B < c.numVar) (hk : c.keySize ≤ 8)
    (hp : c.vhdr ≤ c.pageSize) (hE : c.eraseFx = id) (h32 : c.pageSize * c.numVar < 2 ^ 32) (h : VarLives c s) :
    s.v.dev.file = Spec.image id s.v.dev.log ∧
    ∀ k, ReadsAs c.pageSize (desk c.pageSize false (s.v.dev.log.take k)) (Spec.image id (s.v.dev.log.take k)) := by
  have h0 : 0 < c.pageSize := by unfold Cfg.vhdr at hp; omega
  have hNV : c.numVar < 2 ^ 32 := lt_of_le_of_lt (Nat.le_mul_of_pos_left _ h0) h32
  obtain ⟨h1, h2⟩ := h.ring hB hd hlt hNV hk (fun p => ⟨p, by rw [hE]; rfl, Or.inl rfl⟩)
  refine ⟨by rw [h1, hE], fun k => ?_⟩
  obtain ⟨n, a, h3⟩ := h2.cut (List.take_prefix k s.v.dev.log)
  exact ReadsAs.held h0 hE (h3.holds (by omega) h32) fun ph p he => (h.fits hp).2 ph p (List.mem_of_mem_take he)

/-- C51 for tables with variable data (`_partial`: the lives of C70, files below 4 GiB).  After any life of a table with variable data, with
any number of power failures and wraps of both files: both devices are what their storage operations made of them, and both files of the operating system answer
read requests as these devices do - now, and after any number of the operations of each. -/
theorem C51_varlife_partial (c : Cfg) (lo K P : Nat) (hok : c.Ok K) (hv : c.VFile) (hid : c.eraseFx = id) (hB : Bounds c lo K P)
    (h127 : c.maxRec ≤ 127) (hN32 : c.pageSize * c.N < 2 ^ 32) (hP0 : 0 < P) (R n0 Q : Nat) (first : Nat → Nat) (d : Data) (x : Idx) (v : Var)
    (l : VLog) (h : LifeW c lo K P R n0 Q first d x v l) :
    (d.dev.file = Spec.image id d.dev.log ∧
      ∀ k, ReadsAs c.pageSize (desk c.pageSize false (d.dev.log.take k)) (Spec.image id (d.dev.log.take k))) ∧
    v.dev.file = Spec.image id v.dev.log ∧
      ∀ k, ReadsAs c.pageSize (desk c.pageSize false (v.dev.log.take k)) (Spec.image id (v.dev.log.take k)) := by
  have h0 : 0 < c.pageSize := by have := hv.page; omega
  have hN : c.N < 2 ^ 32 := lt_of_le_of_lt (Nat.le_mul_of_pos_left _ h0) hN32
  obtain ⟨lv, low, g, I⟩ := h.inv hok hv hid hB h127 hN hP0
  obtain ⟨F1, F2⟩ := h.fits hok hv
  refine ⟨⟨by rw [I.jr.file_eq, hid], fun k => ?_⟩, by rw [I.ring.1, hid], fun k => ?_⟩
  · have H := (I.jr.good.take k).holds hok.B0 hok.dvd hok.N0 (mock := false) hid hN32
    rw [hid] at H
    exact ReadsAs.held h0 hid H fun ph p he => F1.2.2 ph p (List.mem_of_mem_take he)
  · obtain ⟨n, a, h3⟩ := I.ring.2.cut (List.take_prefix k v.dev.log)
    have hm := hv.mem
    rw [Nat.mul_comm] at hm
    exact ReadsAs.held h0 hid (h3.holds (by have := hv.B0; have := hv.two; omega) hm) fun ph p he => F2.2 ph p (List.mem_of_mem_take he)

end

/-! ### Examples -/

/-- Nine inserts with flushes: the variable data file of four pages is in its third round; its bytes show pages 8, 5, 6 and 7. -/
example : ∃ s, VarLives demoW s ∧ 0 < demoW.B ∧ demoW.B ∣ demoW.numVar ∧ demoW.B < demoW.numVar ∧ demoW.keySize ≤ 8 ∧ demoW.vhdr ≤ demoW.pageSize ∧
    demoW.eraseFx = id ∧ demoW.pageSize * demoW.numVar < 2 ^ 32 ∧
    (desk demoW.pageSize false s.v.dev.log).length = 4 * demoW.pageSize ∧
    (List.range 4).map (fun i => pageId (toPage (fileRead (desk demoW.pageSize false s.v.dev.log) (List.replicate demoW.pageSize 7) i demoW.pageSize).1)) =
      [8, 5, 6, 7] := by
  have h1 : (runOpsV demoW (trio0 demoW).d (trio0 demoW).x (trio0 demoW).v (trioOps false)).check (fun (_, _, v) =>
      decide ((desk demoW.pageSize false v.dev.log).length = 4 * demoW.pageSize ∧
      (List.range 4).map (fun i => pageId (toPage (fileRead (desk demoW.pageSize false v.dev.log) (List.replicate demoW.pageSize 7) i demoW.pageSize).1)) =
        [8, 5, 6, 7])) = true := by
    decide +kernel
  obtain ⟨⟨d, x, v⟩, e1, c1⟩ := Res.check_ok h1
  have L0 : VarLives demoW (trio0 demoW) := .fresh _ _ _ _ _
  exact ⟨_, L0.ofCalls (Calls.ofOpsV _ _ _ _ _ _ _ _ (Calls.none _) e1), by decide, by decide, by decide, by decide, by decide, rfl, by decide,
    of_decide_eq_true c1⟩

/-- Five inserts and a flush, the power failure, and the table opened again: the bytes of both files, and the data of key 5 in them. -/
example : ∃ R n0 Q first d x v l, LifeW demoW 1 1000 100 R n0 Q first d x v l ∧ demoW.pageSize * demoW.N < 2 ^ 32 ∧
    (desk demoW.pageSize false d.dev.log).length = 3 * demoW.pageSize ∧
    (desk demoW.pageSize false v.dev.log).length = 4 * demoW.pageSize ∧
    pageId (toPage (fileRead (desk demoW.pageSize false v.dev.log) (List.replicate demoW.pageSize 7) 0 demoW.pageSize).1) = 4 ∧
    ((desk demoW.pageSize false v.dev.log).drop (demoW.vhdr + 4)).take 20 = blob 20 40 := by
  obtain ⟨R, n0, Q, first, d, x, v, l, h1, -, -, -, -, -, h5⟩ := demoWAgain_ok (W := fun d _ v => decide (
    (desk demoW.pageSize false d.dev.log).length = 3 * demoW.pageSize ∧
    (desk demoW.pageSize false v.dev.log).length = 4 * demoW.pageSize ∧
    pageId (toPage (fileRead (desk demoW.pageSize false v.dev.log) (List.replicate demoW.pageSize 7) 0 demoW.pageSize).1) = 4 ∧
    ((desk demoW.pageSize false v.dev.log).drop (demoW.vhdr + 4)).take 20 = blob 20 40)) (by decide +kernel)
  exact ⟨R, n0, Q, first, d, x, v, l, h1, by decide, of_decide_eq_true h5⟩

end EDB
