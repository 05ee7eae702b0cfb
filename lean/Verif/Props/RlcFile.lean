import Verif.Props.Rlc
import Verif.Proofs.RlcFile

/-!
# C20, C21, C51, C52: record-level consistency on files of bytes

With record-level consistency the library writes behind the end of the data file (the first temporary page is written one block
further on than the first data page), so the file gets holes.  They read as zeros (desktop) or as bytes 255 (SD card).
Theorems about `Rlc` speak of both, see `Gaps`; here this is shown from the bytes.
-/

namespace EDB

open Spec (Log Op Out Attempt MayHold PageStore pagesIn)

/-- The pages of a file of the operating system after these storage operations, as the library reads them. -/
def deskPages (sz : Nat) (log : List Ev) : Nat → Option Page := fun i => (pagesIn sz (desk sz false log) i).map toPage

/-- The pages of a file on an SD card after these storage operations. -/
def sdPages (sz : Nat) (log : List Ev) : Nat → Option Page := fun i => (pagesIn sz (sdRun sz log).bytes i).map toPage

section
variable {c : Cfg} {lo K P : Nat}

theorem filler_zero : Filler c P 0 := by
  have e : fillPage c.pageSize 0 = fun _ => 0 := by
    funext i
    unfold fillPage
    split <;> rfl
  refine ⟨?_, Or.inr ⟨?_, ?_⟩⟩ <;> rw [e] <;> decide

theorem filler_ones (hok : RlcOk c K P) (hP : P < 2 ^ 32) (hodd : ¬ c.B ∣ 2 ^ 32 - 1) : Filler c P 255 := by
  have hp := hok.page
  unfold minOff at hp
  have g : ∀ i, i < 6 → fillPage c.pageSize 255 i = 255 := fun i hi => by unfold fillPage; rw [if_pos (by omega)]
  have e1 : pageId (fillPage c.pageSize 255) = 2 ^ 32 - 1 := by
    have : rd (fillPage c.pageSize 255) 0 4 = rd (fun _ => 255) 0 4 := by
      simp [rd, List.range_succ, g]
    unfold pageId
    rw [this]
    decide
  have e2 : pageCount (fillPage c.pageSize 255) = 65535 := by
    have : rd (fillPage c.pageSize 255) 4 2 = rd (fun _ => 255) 4 2 := by
      simp [rd, List.range_succ, g]
    unfold pageCount
    rw [this]
    decide
  refine ⟨by rw [e2]; decide, Or.inl ⟨by rw [e1]; omega, ?_⟩⟩
  intro ph hph h
  rw [e1] at h
  apply hodd
  rw [← Nat.div_add_mod (2 ^ 32 - 1) c.N, h]
  exact Nat.dvd_add (Dvd.dvd.mul_right hok.dvd _) hph

theorem RlcDurable.size (D : RlcDurable c lo K P) : 0 < c.pageSize := by
  have := D.ok.page
  unfold minOff at this
  omega

theorem RlcKept.offs {v : Dev} {L : Log} (k : RlcKept c P L v) (h32 : c.pageSize * c.N < 2 ^ 32) :
    ∀ ph q, Ev.write ph q ∈ v.log → c.pageSize * ph < 2 ^ 32 := fun ph q h =>
  lt_of_le_of_lt (Nat.mul_le_mul_left _ (k.writes ph q h).1.le) h32

/-- A desktop life. -/
theorem desk_showing (D : RlcDurable c lo K P) (hE : c.eraseFx = id) (h32 : c.pageSize * c.N < 2 ^ 32) {M : Machine} {H : List Attempt}
    (h : RlcG c lo K P (fun v f' => f' = deskPages c.pageSize v.log) M H) : Rlc c lo K P M H ∧ Showing c.pageSize 0 M.dev := by
  refine h.showing D.ok D.bounds D.two hE filler_zero ?_
  intro v f' L k e
  rw [e]
  exact (desk_bytes D.size (k.offs h32)).read fun ph q hq => (k.writes ph q hq).2.2

/-- C51 with record-level consistency (`_partial`: `RlcDurable` configurations, files below 4 GiB, the no-op erase).  Whatever happened to a
data file in a life in which, whenever power is off, it may turn into what its bytes show: this is one of the lives the other theorems are about, and carrying out
its storage operations on a file of the operating system gives the same answers to read requests, byte for byte, wherever the device of these theorems can be
read.  Where it cannot, reading the file fails and leaves the buffer alone, or the page was never written and is all zeros. -/
theorem C51_rlc_partial (D : RlcDurable c lo K P) (hE : c.eraseFx = id) (h32 : c.pageSize * c.N < 2 ^ 32) {M : Machine} {H : List Attempt}
    (h : RlcG c lo K P (fun v f' => f' = deskPages c.pageSize v.log) M H) :
    Rlc c lo K P M H ∧
    ∀ i, c.pageSize * i < 2 ^ 32 → ∀ buf : List Byte, buf.length = c.pageSize →
      match M.dev.file i with
      | some p => fileRead (desk c.pageSize false M.dev.log) buf i c.pageSize = (rd p 0 c.pageSize, 1) ∧ toPage (rd p 0 c.pageSize) = p
      | none => fileRead (desk c.pageSize false M.dev.log) buf i c.pageSize = (buf, 0) ∨
          (fileRead (desk c.pageSize false M.dev.log) buf i c.pageSize = (List.replicate c.pageSize 0, 1) ∧
            ∀ q, Ev.write i q ∉ M.dev.log) := by
  obtain ⟨R, S⟩ := desk_showing D hE h32 h
  refine ⟨R, ?_⟩
  intro i hi buf hb
  obtain ⟨L, k⟩ := (R.inv D.ok D.bounds D.two).kept
  have B := desk_bytes D.size (k.offs h32)
  have Rd := (holds_pagesIn D.size ⟨_, B.len⟩).read D.size hi buf hb
  rw [B.pages] at Rd
  rw [Rd]
  unfold PageStore.read storeOf holed
  rcases S i with g | ⟨g1, g2, g3⟩
  · rw [g]
    cases e : Spec.image id M.dev.log i with
    | some p =>
      exact ⟨rfl, toPage_rd (k.writes i p (image_written _ e)).2.2⟩
    | none =>
      rw [Option.none_or]
      by_cases ht : i < tops M.dev.log
      · rw [if_pos ht]
        exact Or.inr ⟨by simp [rd_fill], image_unwritten _ e⟩
      · rw [if_neg ht]
        exact Or.inl rfl
  · rw [g1, g3, Option.none_or, if_pos g2]
    exact ⟨rfl, toPage_rd (within_fill _ _)⟩

/-- C20 on a desktop file (`_partial` as `C20_crash_partial`, files below 4 GiB, the no-op erase): `C20_crash_partial` with the file
as its bytes show it, now and whenever it was opened before. -/
theorem C20_desktop_partial (D : RlcDurable c lo K P) (hE : c.eraseFx = id) (h32 : c.pageSize * c.N < 2 ^ 32) {v : Dev} {H : List Attempt}
    (h : RlcG c lo K P (fun v f' => f' = deskPages c.pageSize v.log) (.off v) H) (rb : Page) (sm : Nat → Nat × Nat) :
    ∃ d' L, recover c { v with file := deskPages c.pageSize v.log } rb sm = (d', 0) ∧ MayHold c.maxRec H L ∧
      ∀ (ops : List Op) (x : Idx), Client c lo K ops → (∀ op ∈ ops, op.isRead) →
        Spec.Run (fun _ => True) (fun l => l.live (Spec.rlcDropped c.N c.B l.pages.length)) c.maxRec c.cmpData L
          (history c d' x ops) :=
  C20_crash_partial D (desk_showing D hE h32 (.gaps h rfl)).1 rb sm

/-- C20 on an SD card (`_partial` as above; page sizes divisible by 4, blocks whose size does not divide 2^32 - 1, see `C65_false_odd`; reads
behind the end of the file fail, see `C52_false_read`). -/
theorem C20_sd_partial (D : RlcDurable c lo K P) (hE : c.eraseFx = id) (h32 : c.pageSize * c.N < 2 ^ 32) (h4 : 4 ∣ c.pageSize)
    (hodd : ¬ c.B ∣ 2 ^ 32 - 1) {v : Dev} {H : List Attempt}
    (h : RlcG c lo K P (fun v f' => f' = sdPages c.pageSize v.log) (.off v) H) (rb : Page) (sm : Nat → Nat × Nat) :
    ∃ d' L, recover c { v with file := sdPages c.pageSize v.log } rb sm = (d', 0) ∧ MayHold c.maxRec H L ∧
      ∀ (ops : List Op) (x : Idx), Client c lo K ops → (∀ op ∈ ops, op.isRead) →
        Spec.Run (fun _ => True) (fun l => l.live (Spec.rlcDropped c.N c.B l.pages.length)) c.maxRec c.cmpData L
          (history c d' x ops) := by
  refine C20_crash_partial D ?_ rb sm
  refine ((RlcG.gaps h rfl).showing D.ok D.bounds D.two hE (filler_ones D.ok D.bounds.pages hodd) ?_).1
  intro v f' L k e
  rw [e]
  exact (sd_bytes D.size h4 (k.offs h32)).read fun ph q hq => (k.writes ph q hq).2.2

end

/-! The hypotheses hold of lives with five sessions, power failing during inserts and a recovery. -/

/-- Whenever power is off, what the bytes show is what is found. -/
def lifeF : List Act :=
  putsR [1] ++ [.idle, .hole 0, .reopen] ++ putsR [2] ++ [.putCut 3 (datR 3) 1, .hole 0, .openCut 1, .hole 0, .reopen] ++ putsR [4, 5, 6, 7] ++
    [.putCut 8 (datR 8) 2, .hole 0, .reopen] ++ putsR [9, 10, 11, 12, 13, 14] ++ [.idle, .hole 0, .reopen] ++ putsR [15, 16, 17, 18] ++ [.idle]

/-- Test of its end. -/
def offTest (ops acked tried : Nat) : Option (Machine × List Attempt) → Bool
  | some (.off v, H) => v.log.length == ops && (Spec.acked H).length == acked && (Spec.tried H).length == tried
  | _ => false

theorem offTest_rlc {G : Dev → (Nat → Option Page) → Prop} {hole : Nat → Dev → Option (Nat → Option Page)} (hG : ∀ n v f', hole n v = some f' → G v f')
    {c : Cfg} {lo K P ops acked tried : Nat} {M : Machine × List Attempt} {l : List Act} {rb : Page} {sm : Nat → Nat × Nat}
    (h : RlcG c lo K P G M.1 M.2) (t : offTest ops acked tried (actsG hole c lo K P rb sm M l) = true) :
    ∃ v H, RlcG c lo K P G (.off v) H ∧ v.log.length = ops ∧ (Spec.acked H).length = acked ∧ (Spec.tried H).length = tried := by
  cases e : actsG hole c lo K P rb sm M l with
  | none => rw [e] at t; cases t
  | some M =>
    rw [e] at t
    obtain ⟨M, H⟩ := M
    cases M with
    | on d => cases t
    | off v =>
      simp only [offTest, Bool.and_eq_true, beq_iff_eq] at t
      exact ⟨v, H, actsG_rlc hG _ h e, t.1.1, t.1.2, t.2⟩

example : RlcDurable demoD 0 1000 1000 ∧ demoD.eraseFx = id ∧ demoD.pageSize * demoD.N < 2 ^ 32 ∧
    ∃ v H, RlcG demoD 0 1000 1000 (fun v f' => f' = deskPages demoD.pageSize v.log) (.off v) H ∧ v.log.length = 50 ∧
      (Spec.acked H).length = 16 ∧ (Spec.tried H).length = 18 :=
  ⟨demoD_durable, rfl, by decide, offTest_rlc (hole := fun _ v => some (deskPages demoD.pageSize v.log)) (fun n v f' h => by cases h; rfl)
    (ops := 50) (acked := 16) (tried := 18) (rb := fun _ => 0) (sm := fun _ => (0, 0)) (l := lifeF)
    (M := (.on (Data.fresh demoD (fun _ => 0) fun _ => (0, 0)), [])) (.new _ _) (by decide +kernel)⟩

/-- Pages of 28 bytes. -/
def demoS : Cfg := { demoD with pageSize := 28 }

theorem demoS_durable : RlcDurable demoS 0 1000 1000 where
  ok := {
    B0 := by decide
    dvd := by decide
    four := by decide
    N32 := by decide
    page := by decide
    cap := by decide
    cap127 := by decide
    spl := by decide
    layout := ⟨by decide, by decide, fun _ _ h => h⟩
    cmp := cmpOk_cmp3 _
    on := rfl
    spline := rfl
    io := fun _ => rfl
    eraser := ⟨rfl, Or.inl fun _ => rfl⟩
    start := Or.inl (by decide) }
  bounds := ⟨by decide, by decide, by decide⟩
  two := by decide

example : demoS.eraseFx = id ∧ demoS.pageSize * demoS.N < 2 ^ 32 ∧ 4 ∣ demoS.pageSize ∧ ¬ demoS.B ∣ 2 ^ 32 - 1 ∧
    ∃ v H, RlcG demoS 0 1000 1000 (fun v f' => f' = sdPages demoS.pageSize v.log) (.off v) H ∧ v.log.length = 50 ∧
      (Spec.acked H).length = 16 ∧ (Spec.tried H).length = 18 :=
  ⟨rfl, by decide, by decide, by decide, offTest_rlc (hole := fun _ v => some (sdPages demoS.pageSize v.log)) (fun n v f' h => by cases h; rfl)
    (ops := 50) (acked := 16) (tried := 18) (rb := fun _ => 0) (sm := fun _ => (0, 0)) (l := lifeF)
    (M := (.on (Data.fresh demoS (fun _ => 0) fun _ => (0, 0)), [])) (.new _ _) (by decide +kernel)⟩

end EDB
