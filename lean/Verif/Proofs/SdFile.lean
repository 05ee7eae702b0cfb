import Verif.Model.SdFile
import Verif.Model.Dataflash
import Verif.Proofs.Desktop

/-! Helper lemmas: the SD card interface and the dataflash interface. -/

namespace EDB

open Spec (PageStore pagesIn)

section
variable {sz : Nat} {f : List Byte} {k : Nat} {s : PageStore}

/-- Pages and gaps of a write anywhere. -/
theorem pagesIn_gap (h0 : 0 < sz) {g : Byte} (hd : sz ∣ f.length) {n : Nat} (hn : f.length ≤ sz * n) {bs : List Byte}
    (hb : bs.length = sz) {f' : List Byte} (hf : f' = f ++ List.replicate (sz * n - f.length) g ++ bs) :
    sz ∣ f'.length ∧ pagesIn sz f' = (pagesIn sz f).writeGap (f.length / sz) n bs (List.replicate sz g) := by
  obtain ⟨k, hk⟩ := hd
  have hkn : k ≤ n := by
    rw [hk] at hn
    exact Nat.le_of_mul_le_mul_left hn h0
  have hlen : f'.length = sz * (n + 1) := by
    rw [hf]; simp only [List.length_append, List.length_replicate, hb, hk]
    have := Nat.mul_le_mul_left sz hkn
    rw [Nat.mul_succ]; omega
  refine ⟨⟨_, hlen⟩, ?_⟩
  have H := holds_pagesIn h0 (Dvd.intro _ hk.symm)
  rw [hk, Nat.mul_div_cancel_left _ h0] at H ⊢
  symm
  apply Eq.symm
  refine PagesHeld.pagesIn h0 (k := n + 1) ⟨hlen, ?_, ?_⟩
  · intro i hi
    have hin := mul_lt_page (sz := sz) hi
    unfold PageStore.writeGap
    have get : ∀ j, f'[j]? = if j < sz * k then f[j]? else if j < sz * n then some g else bs[j - sz * n]? := by
      intro j
      have hkn' := Nat.mul_le_mul_left sz hkn
      rw [hf, List.append_assoc]
      by_cases h1 : j < sz * k
      · rw [if_pos h1, List.getElem?_append_left (by omega)]
      · rw [if_neg h1, List.getElem?_append_right (by omega), hk]
        by_cases h2 : j < sz * n
        · rw [if_pos h2, List.getElem?_append_left (by simp; omega), List.getElem?_replicate, if_pos (by omega)]
        · rw [if_neg h2, List.getElem?_append_right (by simp; omega), List.length_replicate]
          congr 1; omega
    split_ifs with h1 h2
    · subst h1
      congr 1
      apply List.ext_getElem?
      intro j
      have hkn' := Nat.mul_le_mul_left sz hkn
      rw [pread_get, get]
      by_cases hj : j < sz
      · rw [if_pos hj, if_neg (by omega), if_neg (by omega), Nat.add_sub_cancel_left]
      · rw [if_neg hj, List.getElem?_eq_none (by omega)]
    · congr 1
      apply List.ext_getElem?
      intro j
      have a1 := Nat.mul_le_mul_left sz h2.1
      have a2 := mul_lt_page (sz := sz) h2.2
      rw [pread_get, get, List.getElem?_replicate]
      by_cases hj : j < sz
      · rw [if_pos hj, if_pos hj, if_neg (by omega), if_pos (by omega)]
      · rw [if_neg hj, if_neg hj]
    · have hik : i < k := by omega
      have a1 := mul_lt_page (sz := sz) hik
      rw [H.page i hik]
      congr 1
      apply List.ext_getElem?
      intro j
      rw [pread_get, pread_get, get]
      by_cases hj : j < sz
      · rw [if_pos hj, if_pos hj, if_pos (by omega)]
      · rw [if_neg hj, if_neg hj]
  · intro i hi
    unfold PageStore.writeGap
    rw [if_neg (by omega), if_neg (by omega), H.none i (by omega)]

theorem pwrite_end (f bs : List Byte) (o : Nat) (h : f.length ≤ o) :
    pwrite f o bs = f ++ List.replicate (o - f.length) 0 ++ bs := by
  unfold pwrite
  rw [List.take_of_length_le h, List.drop_eq_nil_of_le (by omega), List.append_nil]

theorem pwrite_append (f bs : List Byte) : pwrite f f.length bs = f ++ bs := by
  rw [pwrite_end _ _ _ (Nat.le_refl _)]; simp

/-- Filling the gap. -/
theorem sdFill_ok (m : Nat) : ∀ (fuel : Nat) (f : SdFile) (i : Nat), m ≤ fuel → f.pos = f.bytes.length →
    ∃ j, sdFill (fun _ => true) (f.bytes.length + 4 * m) fuel f f.bytes.length i =
      some (⟨f.bytes ++ List.replicate (4 * m) 255, f.bytes.length + 4 * m⟩, j) := by
  induction m with
  | zero =>
    intro fuel f i _ hp
    refine ⟨i, ?_⟩
    cases fuel with
    | zero => simp only [sdFill]; cases f; simp_all
    | succ n => simp only [sdFill, Nat.mul_zero, Nat.add_zero, Nat.lt_irrefl, if_false]; cases f; simp_all
  | succ m ih =>
    intro fuel f i hm hp
    obtain ⟨n, rfl⟩ : ∃ n, fuel = n + 1 := ⟨fuel - 1, by omega⟩
    have hf : f.put (List.replicate 4 255) true = ⟨f.bytes ++ List.replicate 4 255, f.bytes.length + 4⟩ := by
      simp only [SdFile.put, if_true, hp, pwrite_append, List.length_replicate]
    obtain ⟨j, hj⟩ := ih n (f.put (List.replicate 4 255) true) (i + 1) (by omega) (by rw [hf]; simp)
    refine ⟨j, ?_⟩
    simp only [sdFill, if_true]
    rw [if_pos (by omega)]
    rw [hf] at hj ⊢
    have e1 : (f.bytes ++ List.replicate 4 (255 : Byte)).length = f.bytes.length + 4 := by simp
    simp only [e1] at hj
    rw [show f.bytes.length + 4 * (m + 1) = f.bytes.length + 4 + 4 * m by ring, hj]
    congr 3
    rw [List.append_assoc, List.replicate_append_replicate]
    congr 2; ring

end

end EDB
