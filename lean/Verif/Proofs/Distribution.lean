import Verif.Model.Distribution
import Verif.Proofs.Estimate

/-!
# The single-file distribution compared with the library
-/

namespace EDB

open Spec (Log Op Out Rnd)

variable {r : Rnd 24} {c : Cfg} {M : Nat}

theorem slotRoom {n : Nat} (hn : n < c.maxRec) : c.hdr + c.recSize * n + c.recSize ≤ c.pageSize := by
  unfold Cfg.maxRec at hn
  have h1 : (c.pageSize - c.hdr) / c.recSize * c.recSize ≤ c.pageSize - c.hdr := Nat.div_mul_le_self _ _
  have h2 : (n + 1) * c.recSize ≤ (c.pageSize - c.hdr) / c.recSize * c.recSize := Nat.mul_le_mul_right _ hn
  have h3 : (n + 1) * c.recSize = c.recSize * n + c.recSize := by ring
  have h0 : 0 < c.pageSize - c.hdr := by
    by_contra h
    have : c.pageSize - c.hdr = 0 := by omega
    rw [this, Nat.zero_div] at hn
    omega
  omega

/-- The slopes of pages that are not empty agree. -/
theorem slopeOfD_eq (hM : c.pageSize ≤ M) (h32 : c.pageSize < 2 ^ 32) {p : Page} (h0 : 0 < pageCount p)
    (h1 : pageCount p ≤ c.maxRec) : slopeOfD r c M p = .ok (slopeOf r c p) := by
  have hx : (pageCount p + (2 ^ 32 - 1)) % 2 ^ 32 = pageCount p - 1 := by
    have := pageCount_lt p
    omega
  have hs := slotRoom (c := c) (n := pageCount p - 1) (by omega)
  have hk : c.keySize ≤ c.recSize := by unfold Cfg.recSize; omega
  unfold slopeOfD slopeOf
  simp only [hx]
  rw [if_neg (show ¬ pageCount p = 0 by omega)]
  by_cases h : pageCount p - 1 = 0
  · rw [if_pos h, if_pos h]
  · rw [if_neg h, if_neg h, Nat.mod_eq_of_lt (by omega), if_pos (by omega)]
    rw [show slotKey c p (pageCount p - 1) = leNat (rd p (c.hdr + c.recSize * (pageCount p - 1)) c.keySize) by
      unfold slotKey slotOff; rw [Nat.add_comm c.hdr]]

/-- The slope of an empty page. -/
theorem slopeOfD_empty (hM : M + c.recSize < 2 ^ 32) (hr : 0 < c.recSize) {p : Page} (h0 : pageCount p = 0) :
    slopeOfD r c M p = .ub := by
  unfold slopeOfD
  have hmod : c.recSize * (2 ^ 32 - 1) % 2 ^ 32 = 2 ^ 32 - c.recSize := by
    have : c.recSize * (2 ^ 32 - 1) = (c.recSize - 1) * 2 ^ 32 + (2 ^ 32 - c.recSize) := by
      obtain ⟨n, hn⟩ : ∃ n, c.recSize = n + 1 := ⟨c.recSize - 1, by omega⟩
      rw [hn]
      have : n + 1 < 2 ^ 32 := by omega
      omega
    rw [this, Nat.add_comm, Nat.add_mul_mod_self_right, Nat.mod_eq_of_lt (by omega)]
  simp only [h0, Nat.zero_add]
  rw [Nat.mod_eq_of_lt (show 2 ^ 32 - 1 < 2 ^ 32 by norm_num), if_neg (by norm_num), hmod, if_neg (by omega)]

theorem searchNodeD_eq (hM : c.pageSize ≤ M) (h32 : c.pageSize < 2 ^ 32) {p : Page} (h0 : 0 < pageCount p)
    (h1 : pageCount p ≤ c.maxRec) (key : Nat) : searchNodeD r c M p key = searchNodeF r c p key := by
  unfold searchNodeD searchNodeF estimateLocD estimateLoc
  rw [slopeOfD_eq hM h32 h0 h1, Res.ok_bind]

theorem searchesAs_D (hM : c.pageSize ≤ M) (h32 : c.pageSize < 2 ^ 32) (hE : Estimates r c) :
    SearchesAs (searchNodeD r c M) r c := fun _ key _ h0 h1 h => by
  rw [searchNodeD_eq hM h32 h0 h1]
  exact searchNodeF_eq hE h

theorem getMaxErrD_eq (hM : c.pageSize ≤ M) (h32 : c.pageSize < 2 ^ 32) {p w : Page}
    (h0 : 0 < pageCount (if c.keySize ≤ 4 then p else w)) (h1 : pageCount (if c.keySize ≤ 4 then p else w) ≤ c.maxRec) :
    getMaxErrD r c M p w = getMaxErr r c p w := by
  unfold getMaxErrD getMaxErr
  rw [slopeOfD_eq hM h32 h0 h1, Res.ok_bind]

/-! ### Opening with two functions that agree on the pages of the file -/

theorem followF_congr {me me' : Page → Page → Res Int} {w : Page} {v : Dev}
    (hv : ∀ i p, v.file i = some p → pageId p % c.N = i → me p w = me' p w) :
    ∀ (n : Nat) (d : Data) (pos last : Nat) (more : Bool), Fresh d → d.dev = v → d.wbuf = w →
      (more = true → v.file pos = some d.rbuf) → followF me c n d pos last more = followF me' c n d pos last more := by
  intro n
  induction n with
  | zero => intro d pos last more _ _ _ _; rfl
  | succ n ih =>
    intro d pos last more hF hdv hw hm
    unfold followF
    by_cases h1 : more ∧ pos < c.N
    · rw [if_pos h1, if_pos h1]
      by_cases h2 : pageId d.rbuf % c.N = pos ∧ pageId d.rbuf = (last + 1) % 2 ^ 32
      · rw [if_pos h2, if_pos h2]
        have he := hv pos d.rbuf (hm h1.1) h2.1
        rw [← hw] at he
        rw [he]
        obtain ⟨f1, f2, f3, f4⟩ := readPage_all hF (pos + 1)
        simp only
        rw [ih _ _ _ _ f1 (f2.trans hdv) (f3.trans hw) (fun h => by rw [← hdv]; exact f4 h)]
      · rw [if_neg h2, if_neg h2]
    · rw [if_neg h1, if_neg h1]

theorem probeF_congr {me me' : Page → Page → Res Int} {w : Page} {v : Dev}
    (hv : ∀ i p, v.file i = some p → pageId p % c.N = i → me p w = me' p w) :
    ∀ (n : Nat) (d : Data) (pos : Nat) (more : Bool), Fresh d → d.dev = v → d.wbuf = w →
      (more = true → v.file pos = some d.rbuf) →
      probeF me c n d pos more = probeF me' c n d pos more ∧ ∀ f, probeF me' c n d pos more = .ok f →
        Fresh f.d ∧ f.d.dev = v ∧ f.d.wbuf = w ∧ (f.more = true → v.file f.pos = some f.d.rbuf) := by
  intro n
  induction n with
  | zero =>
    intro d pos more h1 h2 h3 h4
    refine ⟨rfl, fun f hf => ?_⟩
    cases hf
    exact ⟨h1, h2, h3, h4⟩
  | succ n ih =>
    intro d pos more hF hdv hw hm
    unfold probeF
    by_cases h1 : more = true
    · rw [if_pos h1, if_pos h1]
      by_cases h2 : looksValid c d.rbuf pos = true
      · rw [if_pos h2, if_pos h2]
        have hid : pageId d.rbuf % c.N = pos := by
          unfold looksValid at h2
          simp only [decide_eq_true_eq] at h2
          exact h2.1
        have he := hv pos d.rbuf (hm h1) hid
        rw [← hw] at he
        rw [he]
        refine ⟨rfl, fun f hf => ?_⟩
        obtain ⟨e, -, hf⟩ := Res.bind_eq_ok hf
        cases hf
        obtain ⟨f1, f2, f3, f4⟩ := readPage_all hF (pos + 1)
        exact ⟨f1, f2.trans hdv, f3.trans hw, fun h => by rw [← hdv]; exact f4 h⟩
      · rw [if_neg h2, if_neg h2]
        obtain ⟨f1, f2, f3, f4⟩ := readPage_all hF (pos + c.B)
        exact ih _ _ _ f1 (f2.trans hdv) (f3.trans hw) (fun h => by rw [← hdv]; exact f4 h)
    · rw [if_neg h1, if_neg h1]
      refine ⟨rfl, fun f hf => ?_⟩
      cases hf
      exact ⟨hF, hdv, hw, hm⟩

theorem recoverWith_congr {me me' : Page → Page → Res Int} {d : Data} (hF : Fresh d)
    (hv : ∀ i p, d.dev.file i = some p → pageId p % c.N = i → me p d.wbuf = me' p d.wbuf) :
    recoverWith me c d = recoverWith me' c d := by
  obtain ⟨f1, f2, f3, f4⟩ := readPage_all hF 0
  obtain ⟨g1, g2⟩ := probeF_congr (v := d.dev) (w := d.wbuf) hv 2 (readPage d 0).1 0 (readPage d 0).2 f1 f2 f3 f4
  unfold recoverWith
  simp only
  rw [g1]
  cases hp : probeF me' c 2 (readPage d 0).1 0 (readPage d 0).2 with
  | ub => rfl
  | fuel => rfl
  | ok f =>
    obtain ⟨k1, k2, k3, k4⟩ := g2 f hp
    simp only [Res.ok_bind]
    cases f.last with
    | none => rfl
    | some last =>
      simp only
      rw [followF_congr (v := d.dev) (w := d.wbuf) hv c.N f.d f.pos last f.more k1 k2 k3 k4]

end EDB
