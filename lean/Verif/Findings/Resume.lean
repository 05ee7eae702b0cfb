import Verif.Props.Resume

/-!
# Where the variable data file is not taken up again as C68 wants it
-/

namespace EDB

/-- C68 is false on a device whose erased pages read as 0xFF, when the power fails after the first block of the full file has been
erased and before its first page is written: `embedDBInitVarDataFromFile` finds the newest page in the rest of the file and
then takes the erased page 0 for the oldest one (embedDB.c:792-815), number 2^32 - 1.  The space found is 2^32 - 1 pages in a file
of 4, so no page is ever erased again; all data counts as present; and a lookup of a record whose data was in the erased block offers
a stream of 2^32 - 1 bytes.  One operation earlier the record has its seven bytes. -/
theorem C68_false_first_block :
    counters demoWF (trioOps false) 4 = [4, 0, 8, 25] ∧ counters demoWF (trioOps false) 5 = [4, 4294967295, 8, 0] ∧
    (∀ k, k = 4 ∨ k = 5 → ((resumeAt demoWF ((trioOps false).take 10) k).bind fun (d, v, _) => getVar demoWF d v 15).check
      (fun (_, _, r, o, st) => r == 0 && o == some (dat 1) &&
        st.map EDB.Stream.total == some (if k = 4 then 7 else 4294967295)) = true) := by
  refine ⟨by decide +kernel, by decide +kernel, ?_⟩
  rintro k (rfl | rfl) <;> decide +kernel

/-- C68 is false on a device whose erased pages cannot be read.  After the erase of the first block nothing at all is found; after
the first page of the second round the other page of its block stops the search, the file is taken for one that has not
wrapped, and the two pages that still hold data count as available. -/
theorem C68_false_unreadable :
    counters { demoW with eraseFx := fun _ => none } (trioOps false) 5 = [0, 4, 8, 4294967295] ∧
    (counters { demoW with eraseFx := fun _ => none } (trioOps false) 6).take 2 = [5, 3] ∧
    (resumeAt { demoW with eraseFx := fun _ => none } (trioOps false) 6).check (fun (_, v, _) =>
      (v.dev.file 2).map pageId == some 2 && (v.dev.file 3).map pageId == some 3) = true := by
  decide +kernel

/-- C67 does not survive a power failure: with the newest page at the end of a block the next block counts as available, though it
has not been erased; here page 2 is written a second time without having been erased. -/
theorem C67_false_reopen :
    ((resumeAt demoW (trioOps false) 7).bind fun (d, v, _) => runOpsV demoW d noIdx v [.put 205 (dat 0) (some (blob 5 3)), .flush]).check
      (fun (_, _, v) => places v.dev.log == [(true, 0, 1), (true, 1, 2), (true, 2, 3), (true, 3, 4), (false, 0, 2), (true, 0, 1),
        (true, 1, 2), (true, 2, 3)]) = true := by
  decide +kernel

end EDB
