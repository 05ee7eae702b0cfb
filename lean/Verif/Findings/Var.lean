import Verif.Proofs.DemoVar
import Verif.Props.VarCrash
import Verif.Model.VarStreams

/-!
# Variable data: where the code does not meet C26-C30

Counterexamples run on the model.  Operations, configurations: `DemoVar`.
-/

namespace EDB

open Spec (VOp VOut)

/-- Insert key `k` with `n` bytes `10k, 10k+1, …` of variable data. -/
def putB (k n : Nat) : VOp := .put k (dat (UInt8.ofNat k)) (some (blob n (UInt8.ofNat (10 * k))))

/-- Insert key `k` without variable data. -/
def putN (k : Nat) : VOp := .put k (dat (UInt8.ofNat k)) none

/-- What the last `n` operations observe. -/
def lastV (c : Cfg) (n : Nat) (ops : List VOp) : List (Option VOut) :=
  ((historyV c (Data.fresh c (fun _ => 0) (fun _ => (0, 0))) noIdx (Var.fresh c (fun _ => 0) false) ops).map Prod.snd).drop (ops.length - n)

/-- The records and variable data a full scan returns after the operations. -/
def scanV (c : Cfg) (ops : List VOp) : Option (List (Nat × Option (List Byte))) :=
  match runOpsV c (Data.fresh c (fun _ => 0) (fun _ => (0, 0))) noIdx (Var.fresh c (fun _ => 0) false) ops with
  | .ok (d, x, v) =>
    match scanVar c d x v allRows with
    | .ok (_, _, _, rs) => some (rs.map fun r => (r.1.1, r.2))
    | _ => none
  | _ => none

/-! ## C26 -/

/-- C26 is false: `embedDBGetVar` of a buffered record copies the write buffer into the data read buffer
(`readToWriteBuf`, embedDB.c:2226) without telling the cache, so the next lookup of a record of the page that was cached
searches the wrong page: the key is reported missing (it was found by the same call before). -/
theorem C26_false_buffered_get :
    lastV demoV 3 [putB 1 5, putB 2 5, putB 3 5, .getVar 1, .getVar 3, .getVar 1] =
      [some (.gotVar 0 (some (dat 1)) (some (blob 5 10))), some (.gotVar 0 (some (dat 3)) (some (blob 5 30))), some (.gotVar (-1) none none)] := by
  decide +kernel

/-- C26 is false in a table also filled with `embedDBPut`: `recordHasVarData` is left from the insert before, so a record
inserted without variable data refers to the next free place of the variable data file, and its lookup gives a stream
(of whatever will be stored there). -/
theorem C26_false_plain_put :
    ((runOpsV demoV demoV0 noIdx demoVar0 [putB 1 5]).check fun s =>
      (putPlain demoV s.1 s.2.1 s.2.2 2 (dat 2)).check fun t => t.2.2.2 == 0 &&
        (stepV demoV t.1 t.2.1 t.2.2.1 (.getVar 2)).check fun u => u.2.2.2 == .gotVar 0 (some (dat 2)) (some [])) = true := by
  decide +kernel

/-! ## C27 -/

/-- C27 is false: 40 bytes read as 22 + 18.  The first piece ends at the end of a variable page; the stream position then
points at the header of the next page (embedDB.c:1964 skips the header only when more is read in the same call) and the
second piece starts with the eight bytes of that header and misses the last eight bytes. -/
theorem C27_false_page_edge :
    let go (ns : List Nat) (cs : List (List Byte)) : Bool :=
      (runOpsV demoV demoV0 noIdx demoVar0 [putB 1 40, .flush]).check fun s =>
        (getVar demoV s.1 s.2.2 1).check fun t =>
          match t.2.2.2.2 with
          | none => false
          | some st => (readChunks demoV t.2.1 st ns).check fun u => u.2.2 == cs
    go [40] [blob 40 10] = true ∧ go [21, 19] [blob 21 10, blob 19 31] = true ∧
    go [22, 18] [blob 22 10, [1, 0, 0, 0, 1, 0, 0, 0] ++ blob 10 32] = true := by
  decide +kernel

/-! ## C28 -/

/-- C28 is false: `writeVariablePage` reads the last page of the block it is about to reuse into the variable read
buffer, and then overwrites that page in storage without dropping the cached copy.  Six records of one page each, file of
four pages: the lookup of record 6 returns the bytes of record 2. -/
theorem C28_false_stale_cache :
    lastV demoW 1 [putB 1 20, putB 2 20, putB 3 20, putB 4 20, putB 5 20, putB 6 20, .flush, .getVar 6] =
      [some (.gotVar 0 (some (dat 6)) (some (blob 20 20)))] := by
  decide +kernel

/-- C28 is false: a variable page written while it holds no data (because a data page was completed by records without
variable data) carries a stale or zero largest key, so `minVarRecordId` does not advance when its block is reclaimed.
Lookups of records 1 and 2, whose variable data was overwritten, return the bytes of records 9 and 10. -/
theorem C28_false_empty_page :
    lastV demoW 2 [putB 1 5, putB 2 5, putN 3, putN 4, putB 5 5, putB 6 5, putB 7 5, putB 8 5, putB 9 5, putB 10 5, .flush, .getVar 1, .getVar 2] =
      [some (.gotVar 0 (some (dat 1)) (some (blob 5 90))), some (.gotVar 0 (some (dat 2)) (some (blob 5 100)))] := by
  decide +kernel

/-- C28 is false on a device that really erases: `writeVariablePage` erases the block *before* it reads the largest key of
its last page.  If erased pages read as `0xff` the lookup of record 1 returns the bytes of record 5; if they cannot be
read the flush fails. -/
theorem C28_false_erase :
    let ops := [putB 1 20, putB 2 20, putB 3 20, putB 4 20, putB 5 20, .flush, .getVar 1]
    lastV { demoW with eraseFx := fun o => o.map fun _ => fun _ => 0xff } 2 ops =
      [some (.code 0), some (.gotVar 0 (some (dat 1)) (some (blob 20 50)))] ∧
    lastV { demoW with eraseFx := fun _ => none } 2 (ops.take 6) = [some (.code 0), some (.code (-1))] := by
  decide +kernel

/-! ## C29 -/

/-- C29 is false: with stored pages and buffered records a scan that reads variable data goes wrong.  `embedDBNextVar`
takes a record of the first page for a buffered one (`it->nextDataPage == 0`, embedDB.c:1832) and calls `readToWriteBuf`,
which overwrites the page being scanned: record 1 is paired with the bytes of record 3, record 2 is skipped.  After a flush the scan is right. -/
theorem C29_false_buffered :
    scanV demoV [putB 1 5, putB 2 5, putB 3 5] = some [(1, some (blob 5 30)), (3, some (blob 5 30))] ∧
    scanV demoV [putB 1 5, putB 2 5, putB 3 5, .flush] = some [(1, some (blob 5 10)), (2, some (blob 5 20)), (3, some (blob 5 30))] := by
  decide +kernel

/-- C29 is false: on the first stored page and for buffered records the data returned is that of another record. -/
theorem C29_false_page_zero :
    scanV demoV [putB 1 5, putB 2 5, putB 3 5, putB 4 6, putB 5 5] =
      some [(1, some (blob 5 50)), (3, some (blob 5 30)), (4, some (blob 6 40)), (5, some (blob 5 30))] := by
  decide +kernel

/-! ## C30 -/

/-- C30 is false: `embedDBFlush` writes the data page (embedDB.c:1673) before the variable page (embedDB.c:1713).  If
power fails in between, data page 0 is stored and its record refers to variable data that is not. -/
theorem C30_false_flush : ∃ d x v m F G, runOpsV demoV demoV0 noIdx demoVar0 [putB 1 5] = .ok (d, x, v) ∧ CrashV demoV d x v .flush m F G ∧
    0 < m ∧ ¬ VarStored demoV (Spec.vlogAfter demoV.maxRec Spec.VLog.empty (historyV demoV demoV0 noIdx demoVar0 [putB 1 5, .flush])) F G 0 := by
  obtain ⟨⟨d, x, v⟩, e1, h1⟩ : ∃ a, runOpsV demoV demoV0 noIdx demoVar0 [putB 1 5] = .ok a ∧ ((stepV demoV a.1 a.2.1 a.2.2 .flush).check fun t =>
      match cutBetween demoV a.1.dev t.1.dev 1 0 with
      | none => false
      | some p => decide (0 < pageCount p ∧ slotKey demoV p 0 = 1 ∧ (Spec.writes ((between a.1.dev t.1.dev).take 1)).length = 1 ∧
          Spec.fetch demoV.pageSize demoV.vhdr demoV.numVar a.2.2.dev.file (slotLoc demoV p 0) = none)) = true :=
    Res.check_ok (by decide +kernel)
  simp only at h1
  obtain ⟨⟨d', x', v', o⟩, e2, h2⟩ := Res.check_ok h1
  simp only at h2
  refine ⟨d, x, v, _, _, _, e1, CrashV.flushData 1 e2, ?_, ?_⟩
  · split at h2
    · cases h2
    · have := of_decide_eq_true h2
      omega
  · rintro ⟨p, p1, -, p3⟩
    have p1' : cutBetween demoV d.dev d'.dev 1 0 = some p := p1
    rw [p1'] at h2
    obtain ⟨q1, q2, -, q3⟩ := of_decide_eq_true h2
    have := p3 0 q1
    rw [q2] at this
    have hv : (Spec.vlogAfter demoV.maxRec Spec.VLog.empty (historyV demoV demoV0 noIdx demoVar0 [putB 1 5, .flush])).var 1 = some (blob 5 10) := by
      decide +kernel
    rw [hv] at this
    simp only at this
    rw [q3] at this
    cases this

/-! ## C73 -/

/-- C73 is false when the file wraps: a stream opened for record 1 and read a quarter; then four more records of one page
each are inserted into the file of four pages.  The stream is not told: its next read returns bytes of record 5, with the
full length. -/
theorem C73_false_reclaimed :
    ((historyS demoW demoW0 noIdx demoVarW0 []
      [.op (putB 1 20), .op (putB 2 20), .op .flush, .opn 1, .read 0 5, .op (putB 3 20), .op (putB 4 20), .op (putB 5 20), .op (putB 6 20),
       .op .flush, .read 0 15]).map Prod.snd).drop 3 =
      [some (.opened 0 (some (dat 1)) true), some (.bytes (blob 5 10)), some (.res (.code 0)), some (.res (.code 0)), some (.res (.code 0)),
       some (.res (.code 0)), some (.res (.code 0)), some (.bytes (blob 15 55))] := by
  decide +kernel

end EDB
