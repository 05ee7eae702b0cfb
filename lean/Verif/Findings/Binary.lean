import Verif.Props.Binary

/-!
# Binary-search mode: where C16 and C44 are false
-/

namespace EDB

open Spec (Log Op Out Range)

/-- C16 is false in *every* reachable table with at least one stored page: some retained record cannot be looked up,
because `binarySearch` leaves its loop without returning a value. -/
theorem C16_false (c : Cfg) (lo K : Nat) (ops : List Op) (rb : Page) (sm : Nat → Nat × Nat) (x x' : Idx) (d : Data)
    (hok : (plainOf c).Ok K) (hbs : c.binSearch = true) (hB : Bounds c lo K ops.length) (h31 : ops.length ≤ 2 ^ 31)
    (h255 : c.maxRec ≤ 255) (hC : Client c lo K ops) (hS : NoStale c (Data.fresh c rb sm) x ops)
    (hrun : runOps c (Data.fresh c rb sm) x ops = .ok (d, x')) :
    let l := Spec.logAfter c.maxRec Log.empty (history c (Data.fresh c rb sm) x ops)
    l.pages ≠ [] → ∃ r ∈ l.live (Spec.dropped c.N c.B l.pages.length), get c d r.1 = .ub := by
  intro l hne
  obtain ⟨T, hP⟩ := bin_run hok hbs hB h31 h255 (G := fun d x ops => NoStale c d x ops) (fun d L x op ops g _ hc => g.1 hc)
    (fun d x op ops d' x' o g e => g.2 d' x' o e) ops _ x Log.empty d x' (BinTable.fresh hok rb sm) (by simp [Data.fresh]) hC
    (by simp [Log.all, Log.empty]) hS hrun
  obtain ⟨s, Ts⟩ := T.table
  have hdrop : d.min = Spec.dropped c.N c.B l.pages.length := Ts.dropped hok.B0
  have hnext : d.next = l.pages.length := Ts.sim.next
  have hpos := List.length_pos_iff.mpr hne
  have hlive : d.min < d.next := Ts.sim.live (show 0 < d.next by omega)
  obtain ⟨t, t1, t2, t3⟩ := exists_not_inspected _ (Spec.dropped c.N c.B l.pages.length) (l.pages.length - 1) (le_refl _)
    (by omega)
  have ht : t < l.pages.length := by omega
  have hpg : l.pages[t] ≠ [] := Ts.sim.full _ (List.getElem_mem ht)
  refine ⟨l.pages[t].head hpg, mem_live.mpr (Or.inl ⟨t, ht, t1, List.head_mem hpg⟩), ?_⟩
  exact (C16_stored_partial c lo K ops rb sm x x' d hok hbs hB h31 h255 hC hS hrun t t1 ht _ (List.head_mem hpg)).2 t3

/-- C16, the smallest case: one stored page. -/
theorem C16_false_one_page :
    history { demo with binSearch := true } demo0 noIdx [.put 1 (dat 1), .flush, .get 1] =
      [(.put 1 (dat 1), some (.code 0)), (.flush, some (.code 0)), (.get 1, none)] := by
  decide +kernel

/-- C44 is false: opening an iterator in binary-search mode is undefined in every state. -/
theorem C44_false_scan (c : Cfg) (hbs : c.binSearch = true) (d : Data) (x : Idx) (q : Range) :
    step c d x (.scan q) = .ub := step_scan_bin hbs d x q

/-- C44 is false: writing past the end of the data file uses the unallocated spline. -/
theorem C44_false_wrap :
    (history { demo with binSearch := true } demo0 noIdx demoPuts).getLast? = some (.put 11 (dat 10), none) := by
  decide +kernel

end EDB
