import Verif.Findings.Var
import Verif.Props.Index

/-!
# C42: what a failed write of an index or variable page leaves behind

Every file has its own request counter.  The counter of the failing file starts at 100, so that requests of the other files
(numbered from 0) succeed.
-/

namespace EDB

open Spec (VOp VOut Op)

/-- The demo table with an index on storage that refuses all requests from number 100 on. -/
def deadIdx : Cfg := { demoIdx with ioOk := fun n => decide (n < 100) }

/-- Its index file, which refuses everything. -/
def deadIdxX0 : Idx := { demoIdxX0 with dev := { demoIdxX0.dev with reqs := 100 } }

/-- A flush whose index write fails returns -1 after the data page was written, and keeps the records in the write buffer:
a scan returns every record twice, after the next flush three times. -/
theorem C42_false_index :
    historyX deadIdx demoIdx0 deadIdxX0 [.put 1 (dat 1), .flush, .scan allRows, .flush, .scan allRows] =
      [(.put 1 (dat 1), some (.code 0)), (.flush, some (.code (-1))), (.scan allRows, some (.rows [(1, dat 1), (1, dat 1)])),
       (.flush, some (.code (-1))), (.scan allRows, some (.rows [(1, dat 1), (1, dat 1), (1, dat 1)]))] := by
  decide +kernel

/-- … and every attempt appends a bitmap to the index write buffer, without a check that there is room: the eleventh is
copied behind the buffer. -/
theorem C42_false_index_overflow :
    (historyX deadIdx demoIdx0 deadIdxX0 (.put 1 (dat 1) :: List.replicate 11 .flush)).map Prod.snd =
      some (.code 0) :: List.replicate 10 (some (.code (-1))) ++ [none] := by
  decide +kernel

/-- The demo table with variable data on storage that refuses request number 100. -/
def flakyVar : Cfg := { demoV with ioOk := fun n => n != 100 }

/-- Its variable data file, whose first write fails. -/
def flakyVar0 : Var := { demoVar0 with dev := { demoVar0.dev with reqs := 100 } }

/-- An insert whose variable data does not reach the file returns 0, so does the flush after it, and the lookup offers an
empty stream instead of the 40 bytes. -/
theorem C42_false_putVar :
    historyV flakyVar demoV0 noIdx flakyVar0 [putB 1 40, .flush, .getVar 1] =
      [(putB 1 40, some (.code 0)), (.flush, some (.code 0)), (.getVar 1, some (.gotVar 0 (some (dat 1)) (some [])))] := by
  decide +kernel

/-- A flush whose variable page was refused returns -1.  The data page is written and its buffer is empty, so the next
flush returns 0 without another attempt to write the variable page: the record's variable data cannot be read. -/
theorem C42_false_flush_again :
    historyV flakyVar demoV0 noIdx flakyVar0 [putB 1 10, .flush, .flush, .getVar 1] =
      [(putB 1 10, some (.code 0)), (.flush, some (.code (-1))), (.flush, some (.code 0)), (.getVar 1, some (.gotVar (-1) (some (dat 1)) none))] := by
  decide +kernel

end EDB
