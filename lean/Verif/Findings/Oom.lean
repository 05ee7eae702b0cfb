import Verif.Props.Oom

/-!
# C66 is false in general: what goes wrong when memory runs out
-/

namespace EDB

open Spec (Heap Tree)

/-- Memory in which request `k` fails. -/
def fails (k : Nat) : Mem := ⟨⟨0, []⟩, 0, fun i => i != k⟩

/-- Memory in which the requests from `k` on fail. -/
def endsAt (k : Nat) : Mem := ⟨⟨0, []⟩, 0, fun i => decide (i < k)⟩

/-- **C66** is false: `initSelection` does not check the result of `copySchema` and passes NULL to
`createBufferFromSchema`.  The operators of `select (scan)` take six requests, the buffer of the scan is the seventh, and the
next one, for the copy of the schema, fails. -/
theorem C66_false_selection : ∃ k, oomSession (endsAt k) (.select (.scan true)) 0 = .ub := ⟨7, rfl⟩

/-- **C66** is false with a single failing request: when the lower of two projections has no schema, the upper one reads it. -/
theorem C66_false_projection : ∃ k, oomSession (fails k) (.project (.project (.scan true))) 0 = .ub := ⟨9, rfl⟩

/-- .. also when only the columns of the schema are missing. -/
theorem C66_false_columns : ∃ k, oomSession (fails k) (.project (.project (.scan true))) 0 = .ub ∧ k ≠ 9 :=
  ⟨10, rfl, by decide⟩

/-- **C66** is false: `initKeyJoin` reads the schemas of its inputs without a check. -/
theorem C66_false_join : ∃ k, oomSession (endsAt k) (.join true (.project (.scan true)) (.scan true)) 0 = .ub :=
  ⟨13, rfl⟩

/-- **C66** is false: after `init` of an aggregation every pointer the client can see is there, but the private buffer is
not, and `exec` writes to it. -/
theorem C66_false_aggregate : ∃ k, oomSession (fails k) (.aggregate (.scan true)) 1 = .ub ∧
    (oomSession (fails k) (.aggregate (.scan true)) 0).isOk = true := ⟨10, rfl, rfl⟩

/-- **C66** is false: create calls lose a block when their second request fails: each of the four kinds. -/
theorem C66_false_leak :
    (oomSession (fails 1) (.scan true) 0).check (fun m => m.heap.live.length == 1) = true ∧
    (oomSession (fails 3) (.scan true) 0).check (fun m => m.heap.live.length == 1) = true ∧
    (oomSession (fails 5) (.project (.scan true)) 0).check (fun m => m.heap.live.length == 1) = true ∧
    (oomSession (fails 9) (.join true (.scan true) (.scan true)) 0).check (fun m => m.heap.live.length == 1) = true := by
  decide +kernel

/-- `embedDBCreateSchema` writes through NULL when either of its requests fails. -/
theorem C66_false_schema : createSchemaN (fails 0) = .ub ∧ createSchemaN (fails 1) = .ub := ⟨rfl, rfl⟩

/-- `embedDBInit` of a table with a spline writes through NULL when the spline cannot be allocated; when its points cannot be
allocated, `embedDBInit` reports success and the first page written makes `splineAdd` write through NULL. -/
theorem C66_false_spline : initSplN (fails 0) = .ub ∧
    (initSplN (fails 1) >>= fun x => firstAddN x.1 x.2.1 x.2.2) = .ub ∧ (initSplN (fails 1)).isOk = true := ⟨rfl, rfl, rfl⟩

/-- `embedDBInitIterator` with data bounds on a table with bitmaps writes through NULL when the bitmap cannot be
allocated. -/
theorem C66_false_iterator : openItN (fails 0) = .ub := rfl

end EDB
