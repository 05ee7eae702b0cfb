import Verif.Proofs.PageSpec
import Verif.Proofs.Demo
import Verif.Proofs.SplineRing
import Verif.Proofs.SplineFind

/-!
# C11-C14: in-page search and spline
-/

namespace EDB

/-! ## C11 -/

/-- C11.  On a page whose records (decoded from the page's bytes by the specification) have strictly ascending
keys, the in-page search terminates and returns the index of the record with the searched key if there is one,
"not found" otherwise, whatever the floating-point estimate `c.est` is. -/
theorem C11_search_node (c : Cfg) (K : Nat) (hcmp : CmpOk c.cmpKey K) (p : Page) (key : Nat) (hkey : key < K)
    (hsorted : (Spec.pageRecs c.hdr c.recSize c.keySize c.dataSize p).Pairwise (fun a b => a.1 < b.1))
    (hbound : ∀ r ∈ Spec.pageRecs c.hdr c.recSize c.keySize c.dataSize p, r.1 < K) :
    ∃ r, searchNode c p key = .ok r ∧
      ∀ i, r = some i ↔ ∃ d, (Spec.pageRecs c.hdr c.recSize c.keySize c.dataSize p)[i]? = some (key, d) := by
  rw [← recs_spec] at *
  obtain ⟨r, hr, h⟩ := searchNode_ok hcmp ((sortedPage_iff c K p).mpr ⟨hsorted, hbound⟩) hkey
  refine ⟨r, hr, fun i => (h i).trans ⟨?_, ?_⟩⟩
  · rintro ⟨hi, rfl⟩; exact ⟨_, recs_getElem? c p i hi⟩
  · rintro ⟨d, hd⟩
    obtain ⟨hi, he⟩ := List.getElem?_eq_some_iff.mp hd
    rw [recs_getElem] at he
    rw [recs_length] at hi
    exact ⟨hi, congrArg Prod.fst he⟩

/-- A page with the records 5 and 9 meets the hypotheses of C11. -/
example : let p := appendRec demo (appendRec demo (initPage demo) 5 [1, 2, 3, 4] 0) 9 [5, 6, 7, 8] 0
    (Spec.pageRecs demo.hdr demo.recSize demo.keySize demo.dataSize p).Pairwise (fun a b => a.1 < b.1) ∧
    (∀ r ∈ Spec.pageRecs demo.hdr demo.recSize demo.keySize demo.dataSize p, r.1 < 10) ∧
    Spec.pageRecs demo.hdr demo.recSize demo.keySize demo.dataSize p = [(5, [1, 2, 3, 4]), (9, [5, 6, 7, 8])] := by
  decide +kernel

/-! ## C14 -/

/-- C14.  For every ring holding at least two points with strictly ascending keys and every key between the
first and the last, the segment search returns an index `i ≥ 1` such that points `i-1` and `i` bracket the key. -/
theorem C14_segment (s : Spline) (cmp : Nat → Nat → Int) (K key : Nat) (hcmp : CmpOk cmp K) (hkey : key < K)
    (htwo : 2 ≤ s.count) (hasc : ∀ i j, i < j → j < s.count → (s.pt i).1 < (s.pt j).1)
    (hbound : ∀ i, i < s.count → (s.pt i).1 < K)
    (hlo : (s.pt 0).1 ≤ key) (hhi : key ≤ (s.pt (s.count - 1)).1) :
    ∃ i, s.search cmp key (s.count + 1) 0 ((s.count : Int) - 1) = .ok i ∧ 1 ≤ i ∧ i < s.count ∧
      (s.pt (i - 1)).1 ≤ key ∧ key ≤ (s.pt i).1 := by
  have := Spline.search_ok hcmp ⟨hasc, hbound⟩ hkey htwo hlo (s.count + 1) 0 (s.count - 1) (by omega) (by omega)
    (by omega) (Or.inl rfl) hhi
  rwa [show ((0 : Nat) : Int) = 0 from rfl, show ((s.count - 1 : Nat) : Int) = (s.count : Int) - 1 by omega] at this

/-- A ring of three ascending points, wrapped around the end of its memory, meets the hypotheses of C14. -/
example : let s : Spline := { Spline.init 4 1 (fun i => (10 * ((i + 1) % 4), i)) with count := 3, start := 3 }
    2 ≤ s.count ∧ (∀ i j, i < j → j < s.count → (s.pt i).1 < (s.pt j).1) ∧ (∀ i, i < s.count → (s.pt i).1 < 100) ∧
    (s.pt 0).1 ≤ 13 ∧ 13 ≤ (s.pt (s.count - 1)).1 := by
  refine ⟨by decide, ?_, ?_, by decide, by decide⟩
  · intro i j hij hj
    have hj' : j < 3 := hj
    have : (i = 0 ∧ j = 1) ∨ (i = 0 ∧ j = 2) ∨ (i = 1 ∧ j = 2) := by omega
    rcases this with ⟨rfl, rfl⟩ | ⟨rfl, rfl⟩ | ⟨rfl, rfl⟩ <;> decide
  · intro i hi
    have hi' : i < 3 := hi
    have : i = 0 ∨ i = 1 ∨ i = 2 := by omega
    rcases this with rfl | rfl | rfl <;> decide

/-! ## C12 -/

/-- Every spline the library can build: pages `a, a+1, …` are added in order with first keys `ks`; at any time old
points may be removed by `cleanSpline` or `splineErase` (which the library only calls so that two points stay). -/
inductive Built (size e a : Nat) (mem : Nat → Nat × Nat) : Spline → List Nat → Prop
  | init : Built size e a mem (Spline.init size e mem) []
  | add {s ks} (k : Nat) : Built size e a mem s ks → Built size e a mem (s.add k (a + ks.length)) (ks ++ [k])
  | clean {s ks} (m : Nat) : Built size e a mem s ks → Built size e a mem (s.clean m) ks
  | erase {s ks} (n : Nat) : Built size e a mem s ks → n + 2 ≤ s.count → Built size e a mem (s.erase n) ks

theorem built_inv {size e a : Nat} {mem : Nat → Nat × Nat} {s : Spline} {ks full : List Nat}
    (hs : 4 ≤ size) (hstart : a = 0 ∨ e ≤ 1) (hB : Built size e a mem s ks) (hp : ks <+: full)
    (F : full ≠ [] → Spline.Feed (fun p => full.getD (p - a) 0) e a (a + full.length)) :
    Spline.Inv s (fun p => full.getD (p - a) 0) a (a + ks.length) ∧ s.maxErr = e := by
  induction hB with
  | init => exact ⟨Spline.Inv.init size e mem _ a hs, rfl⟩
  | @add s ks k _ ih =>
    obtain ⟨I, he⟩ := ih ((List.prefix_append _ _).trans hp)
    refine ⟨?_, (Spline.add_maxErr _ _ _).trans he⟩
    obtain ⟨t, rfl⟩ := hp
    have hlen : (ks ++ [k] ++ t).length = ks.length + 1 + t.length := by simp; omega
    have F' := F (by simp)
    rw [hlen] at F'
    have hk : (ks ++ [k] ++ t).getD (a + ks.length - a) 0 = k := by
      simp
    have Fn : Spline.Feed (fun p => (ks ++ [k] ++ t).getD (p - a) 0) e a (a + ks.length + 1) := by
      have : ∀ n, Spline.Feed (fun p => (ks ++ [k] ++ t).getD (p - a) 0) e a (a + ks.length + 1 + n) →
          Spline.Feed (fun p => (ks ++ [k] ++ t).getD (p - a) 0) e a (a + ks.length + 1) := by
        intro n
        induction n with
        | zero => exact id
        | succ n ih => intro h; exact ih (Spline.Feed.prev h (by omega))
      exact this t.length (by rwa [show a + (ks.length + 1 + t.length) = a + ks.length + 1 + t.length by omega] at F')
    have := I.add (by rwa [he]) (by rw [he]; exact Fn)
    rw [hk] at this
    rwa [List.length_append, List.length_singleton, ← Nat.add_assoc]
  | clean m _ ih =>
    obtain ⟨I, he⟩ := ih hp
    exact ⟨I.clean m, (Spline.clean_maxErr _ _).trans he⟩
  | erase n _ hn ih =>
    obtain ⟨I, he⟩ := ih hp
    exact ⟨I.dropped hn (Spline.erase_dropped _ hn), (Spline.erase_maxErr _ _).trans he⟩

theorem feed_of_list {e a : Nat} {ks : List Nat} (hasc : ks.Pairwise (· < ·))
    (hfit : ∀ x ∈ ks, ∀ y ∈ ks, (y - x) * (a + ks.length + e) < 2 ^ 63) (hpages : a + ks.length < 2 ^ 32)
    (hne : ks ≠ []) : Spline.Feed (fun p => ks.getD (p - a) 0) e a (a + ks.length) := by
  have hl : 0 < ks.length := List.length_pos_iff.mpr hne
  refine ⟨?_, ?_, hpages⟩
  · intro p q h1 h2 h3
    have := List.pairwise_iff_getElem.mp hasc (p - a) (q - a) (by omega) (by omega) (by omega)
    simp only [List.getD_eq_getElem?_getD, List.getElem?_eq_getElem (show p - a < ks.length by omega),
      List.getElem?_eq_getElem (show q - a < ks.length by omega), Option.getD_some]
    exact this
  · simp only [List.getD_eq_getElem?_getD]
    rw [List.getElem?_eq_getElem (show a - a < ks.length by omega),
      List.getElem?_eq_getElem (show a + ks.length - 1 - a < ks.length by omega)]
    exact hfit _ (List.getElem_mem _) _ (List.getElem_mem _)

/-- C12.  Feed pages `a, a+1, …` with strictly ascending first keys `ks` to a spline of capacity at least 4, for any
error bound `e`, with old points cleaned at any time.  For every key that lies on page `a+i` (at least that page's
first key, below the next page's), the prediction succeeds and its range `[low, high]` contains `a+i`; its estimate
lies in the range and the range ends at the last page.
Hypotheses: 64-bit products do not overflow (`hfit`), page numbers fit in 32 bits, and the first page is page 0
or `e ≤ 1` (otherwise the code stores a duplicate point: `Findings.Spline`). -/
theorem C12_bracket_partial (size e a : Nat) (mem : Nat → Nat × Nat) (s : Spline) (ks : List Nat)
    (cmp : Nat → Nat → Int) (K key i : Nat) (hsize : 4 ≤ size) (hstart : a = 0 ∨ e ≤ 1) (hcmp : CmpOk cmp K)
    (hB : Built size e a mem s ks) (hasc : ks.Pairwise (· < ·)) (hK : ∀ k ∈ ks, k < K) (hkey : key < K)
    (hfit : ∀ x ∈ ks, ∀ y ∈ ks, (y - x) * (a + ks.length + e) < 2 ^ 63) (hpages : a + ks.length < 2 ^ 32)
    (first : Nat) (hi : ks[i]? = some first) (hlo : first ≤ key) (hhi : ∀ k, ks[i + 1]? = some k → key < k) :
    ∃ r, s.find cmp key = .ok r ∧ r.low ≤ a + i ∧ a + i ≤ r.high ∧ r.low ≤ r.loc ∧ r.loc ≤ r.high ∧
      r.high < a + ks.length := by
  have hne : ks ≠ [] := by rintro rfl; simp at hi
  have F := feed_of_list hasc hfit hpages hne
  obtain ⟨I, he⟩ := built_inv hsize hstart hB (List.prefix_refl _) (fun _ => F)
  obtain ⟨hil, hie⟩ := List.getElem?_eq_some_iff.mp hi
  obtain ⟨r, hr, G⟩ := I.find (by rw [he]; exact F) (by omega) hcmp hkey (by
    intro p h1 h2
    simp only [List.getD_eq_getElem?_getD]
    rw [List.getElem?_eq_getElem (show p - a < ks.length by omega)]
    exact hK _ (List.getElem_mem _))
  have hb := G.bracket (a + i) (by omega) (by omega)
    (by
      simp only [List.getD_eq_getElem?_getD]
      rw [show a + i - a = i by omega, hi]; exact hlo)
    (by
      intro hlt
      simp only [List.getD_eq_getElem?_getD]
      rw [show a + i + 1 - a = i + 1 by omega, List.getElem?_eq_getElem (show i + 1 < ks.length by omega)]
      exact hhi _ (List.getElem?_eq_getElem _))
  exact ⟨r, hr, hb.1, hb.2, G.lo, G.hi, G.inside⟩

/-- C12 for a table created empty (pages numbered from 0). -/
theorem C12_bracket (size e : Nat) (mem : Nat → Nat × Nat) (s : Spline) (ks : List Nat)
    (cmp : Nat → Nat → Int) (K key i : Nat) (hsize : 4 ≤ size) (hcmp : CmpOk cmp K)
    (hB : Built size e 0 mem s ks) (hasc : ks.Pairwise (· < ·)) (hK : ∀ k ∈ ks, k < K) (hkey : key < K)
    (hfit : ∀ x ∈ ks, ∀ y ∈ ks, (y - x) * (ks.length + e) < 2 ^ 63) (hpages : ks.length < 2 ^ 32)
    (first : Nat) (hi : ks[i]? = some first) (hlo : first ≤ key) (hhi : ∀ k, ks[i + 1]? = some k → key < k) :
    ∃ r, s.find cmp key = .ok r ∧ r.low ≤ i ∧ i ≤ r.high ∧ r.low ≤ r.loc ∧ r.loc ≤ r.high ∧ r.high < ks.length := by
  have := C12_bracket_partial size e 0 mem s ks cmp K key i hsize (Or.inl rfl) hcmp hB hasc hK hkey
    (by simpa using hfit) (by simpa using hpages) first hi hlo hhi
  simpa using this

/-- Six pages with irregular first keys, cleaned once: the hypotheses of C12 hold (key 47 lies on page 3). -/
example : let ks := [3, 7, 20, 45, 46 + 10, 300]
    ∃ s, Built 4 1 0 (fun _ => (0, 0)) s ks ∧ ks.Pairwise (· < ·) ∧ (∀ k ∈ ks, k < 1000) ∧
      (∀ x ∈ ks, ∀ y ∈ ks, (y - x) * (ks.length + 1) < 2 ^ 63) ∧ ks.length < 2 ^ 32 ∧
      ks[3]? = some 45 ∧ (∀ k, ks[3 + 1]? = some k → 47 < k) := by
  refine ⟨_, .add 300 (.clean 2 (.add 56 (.add 45 (.add 20 (.add 7 (.add 3 .init)))))), ?_⟩
  decide

/-! ## C13 -/

/-- Any sequence of additions (ascending, or repeated keys which the code ignores), cleanings, and erasures of any
number of points short of all of them.  `n` is the number of additions, `last` the last point that was accepted. -/
inductive Grown (size e : Nat) (mem : Nat → Nat × Nat) : Spline → Nat → Option (Nat × Nat) → Prop
  | init : Grown size e mem (Spline.init size e mem) 0 none
  | add {s n l} (k p : Nat) : Grown size e mem s n l → (∀ k' p', l = some (k', p') → n < 2 ∨ k' < k) →
      Grown size e mem (s.add k p) (n + 1) (some (k, p))
  | skip {s n k' p'} (k p : Nat) : Grown size e mem s n (some (k', p')) → 2 ≤ n → k ≤ k' →
      Grown size e mem (s.add k p) (n + 1) (some (k', p'))
  | clean {s n l} (m : Nat) : Grown size e mem s n l → Grown size e mem (s.clean m) n l
  | erase {s n l} (m : Nat) : Grown size e mem s n l → m ≠ s.count → Grown size e mem (s.erase m) n l

/-- C13.  However many points are added and however often old ones are removed, for arbitrary keys and pages (no
bound on the products), the number of stored points never exceeds the configured capacity, and the most recently
accepted point is the last stored point. -/
theorem C13_capacity (size e : Nat) (mem : Nat → Nat × Nat) (s : Spline) (n : Nat) (l : Option (Nat × Nat))
    (hsize : 4 ≤ size) (h : Grown size e mem s n l) :
    s.count ≤ size ∧ s.size = size ∧ (∀ x, l = some x → 1 ≤ s.count ∧ s.pt (s.count - 1) = x) := by
  suffices (∃ x, Spline.Ring s n x ∧ (n = 0 ∧ l = none ∨ 1 ≤ n ∧ l = some x)) ∧ s.size = size by
    obtain ⟨⟨x, R, hx⟩, hz⟩ := this
    refine ⟨by rw [← hz]; exact R.cnt, hz, ?_⟩
    intro y hy
    rcases hx with ⟨-, h⟩ | ⟨h1, h⟩
    · rw [hy] at h; cases h
    · rw [hy] at h; cases h
      refine ⟨?_, R.pt h1⟩
      rcases Nat.lt_or_ge n 2 with h | h
      · have := R.one (by omega); omega
      · have := R.many h; omega
  have esz : ∀ (s : Spline) m, (s.erase m).size = s.size := by
    intro s m; unfold Spline.erase; split_ifs <;> rfl
  have csz : ∀ (s : Spline) m, (s.clean m).size = s.size := by
    intro s m; unfold Spline.clean; simp only; split_ifs <;> first | rfl | exact esz _ _
  have asz : ∀ (s : Spline) n x k p, Spline.Ring s n x → (s.add k p).size = s.size := by
    intro s n x k p R
    unfold Spline.add
    simp only
    have hm : ∀ t : Spline, t.count = s.count → t.size = s.size → t.temp = s.temp → 1 ≤ n →
        (t.addMain k p).size = s.size := by
      intro t e1 e2 e3 hn
      have h1 : 1 ≤ s.count := by
        rcases Nat.lt_or_ge n 2 with h | h
        · have := R.one (by omega); omega
        · have := R.many h; omega
      have := Spline.addMain_ring (s := t) (key := k) (page := p) (by rw [e2]; exact R.size4)
        (by rw [e1, e2]; exact R.cnt) (by omega)
        (fun h => by rw [e3] at h; rw [e1]; exact R.many (R.temp.mp h))
        (fun h => by
          rw [e1]
          rcases Nat.lt_or_ge n 2 with h' | h'
          · exact R.one (by omega)
          · have := R.temp.mpr h'; rw [e3, this] at h; cases h)
      rw [this.2.2.1, e2]
    have hnum := R.num
    split_ifs
    · rfl
    · rfl
    · exact hm _ rfl rfl rfl (by omega)
    · rfl
    · exact hm _ rfl rfl rfl (by omega)
  induction h with
  | init => exact ⟨⟨(0, 0), Spline.Ring.init size e mem _ hsize, Or.inl ⟨rfl, rfl⟩⟩, rfl⟩
  | @add s n l k p _ hk ih =>
    obtain ⟨⟨x, R, hx⟩, hz⟩ := ih
    refine ⟨⟨(k, p), R.add ?_, Or.inr ⟨by omega, rfl⟩⟩, (asz s n x k p R).trans hz⟩
    rcases hx with ⟨h, -⟩ | ⟨-, h⟩
    · left; omega
    · exact hk x.1 x.2 h
  | @skip s n k' p' k p _ h2 hk ih =>
    obtain ⟨⟨x, R, hx⟩, hz⟩ := ih
    rcases hx with ⟨h, -⟩ | ⟨-, h⟩
    · omega
    · cases h
      exact ⟨⟨_, R.skip h2 hk, Or.inr ⟨by omega, rfl⟩⟩, (asz s n _ k p R).trans hz⟩
  | clean m _ ih =>
    obtain ⟨⟨x, R, hx⟩, hz⟩ := ih
    exact ⟨⟨x, R.clean m, hx⟩, (csz _ _).trans hz⟩
  | erase m _ hm ih =>
    obtain ⟨⟨x, R, hx⟩, hz⟩ := ih
    exact ⟨⟨x, R.erase m hm, hx⟩, (esz _ _).trans hz⟩

/-- Three additions, one of them repeated, and a cleaning: the hypothesis of C13 holds. -/
example : ∃ s, Grown 4 1 (fun _ => (0, 0)) s 4 (some (9, 2)) :=
  ⟨_, .clean 1 (.skip 9 3 (.add 9 2 (.add 7 1 (.add 5 0 .init (by simp)) (by simp)) (by simp)) (by decide) (by decide))⟩

end EDB
