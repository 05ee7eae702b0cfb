import Verif.Model.OpenClose

/-!
# C74: how the files of a table are not opened and closed
-/

namespace EDB

/-- The files exist, no stream is open. -/
def quietDisk : Disk := ⟨fun _ => some [1], fun _ => false, 0⟩

/-- C74 is false: when `embedDBInit` refuses the size of the index file, the data file stays open, and `embedDBClose` calls `fclose(NULL)` for the index file;
on an SD card the same calls are fine. -/
theorem C74_false_close : ∃ s ptr, openAll ⟨true, true, false, false, true, false, true⟩ (fun _ _ => true) ⟨0, false, 0⟩ (fun _ => true) quietDisk = .ok (s, ptr, -1) ∧
    s.live = 1 ∧ closeAll false ptr s = .ub ∧ ∃ s', closeAll true ptr s = .ok s' ∧ s'.live = 0 := ⟨_, _, rfl, rfl, rfl, _, rfl, rfl⟩

/-- C74 is false: the pointers to the files survive `embedDBClose`, so that closing a table twice calls `fclose(NULL)`. -/
theorem C74_false_twice : ∃ s ptr s', openAll ⟨true, false, false, false, true, true, true⟩ (fun _ _ => true) ⟨0, false, 0⟩ (fun _ => true) quietDisk = .ok (s, ptr, 0) ∧
    closeAll false ptr s = .ok s' ∧ s'.live = 0 ∧ closeAll false ptr s' = .ub := ⟨_, _, _, rfl, rfl, rfl, rfl⟩

/-- C74 is false: a missing variable data file is not noticed (missing data and index files are). -/
theorem C74_false_no_var : openAll ⟨true, false, true, false, true, true, true⟩ (fun _ _ => true) ⟨0, false, 0⟩ (fun f => f != .var) quietDisk = .ub ∧
    (∃ s ptr, openAll ⟨true, true, true, false, true, true, true⟩ (fun _ _ => true) ⟨0, false, 0⟩ (fun f => f != .idx) quietDisk = .ok (s, ptr, -1)) ∧
    ∃ s ptr, openAll ⟨true, true, true, false, true, true, true⟩ (fun _ _ => true) ⟨0, false, 0⟩ (fun f => f != .data) quietDisk = .ok (s, ptr, -1) :=
  ⟨rfl, ⟨_, _, rfl⟩, _, _, rfl⟩

/-- C74 is false: `embedDBInit` of a table that is open loses its streams. -/
theorem C74_false_again : ∃ s ptr s' ptr' s'', openAll ⟨false, false, false, false, true, true, true⟩ (fun _ _ => true) ⟨0, true, 0⟩ (fun _ => true) quietDisk = .ok (s, ptr, 0) ∧
    openAll ⟨false, false, false, false, true, true, true⟩ (fun _ _ => true) ⟨0, true, 0⟩ ptr s = .ok (s', ptr', 0) ∧
    closeAll false ptr' s' = .ok s'' ∧ s''.live = 1 ∧ ∀ f, s''.handle f = false := ⟨_, _, _, _, _, rfl, rfl, rfl, rfl, fun f => by cases f <;> rfl⟩

end EDB
