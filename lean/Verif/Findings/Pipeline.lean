import Verif.Props.Pipeline

/-! # Where query pipelines do not have the stated property -/

namespace EDB

open Spec (Plan)

/-- COUNT and SUM of the keys over the join of a key range 5..8 of a table with the whole table. -/
def rangeJoin : Plan Bool :=
  .aggregate (.join (.scan false [4, 4] ⟨some 5, some 8, none, none⟩) (.scan false [4, 4] allRows)) (fun _ _ => true) [.count, .sum 0]

/-- C39 is false for an aggregation over a join of bounded scans.  The table holds the keys 5..12.  The query should
give one row, COUNT 4 and SUM 26.  It gives four more rows for the keys 9, 10, 11 and 12, which are not in the range:
`nextAggregate` (advancedQueries.c:556-583) calls the join again after its end, and the join then compares the record the
scan examined last (embedDB.c:1779-1789) and left in its record buffer. -/
theorem C39_false_join_ranges :
    ((runOps demo demo0 noIdx demoPuts).check fun w =>
      session twoTables 30 (.cnt 0) [] (fun _ => w) [rangeJoin] =
        [some [[4, 0, 0, 0, 26, 0, 0, 0, 0, 0, 0, 0], [1, 0, 0, 0, 9, 0, 0, 0, 0, 0, 0, 0], [1, 0, 0, 0, 10, 0, 0, 0, 0, 0, 0, 0],
          [1, 0, 0, 0, 11, 0, 0, 0, 0, 0, 0, 0], [1, 0, 0, 0, 12, 0, 0, 0, 0, 0, 0, 0]]]) = true ∧
    Plan.rows twoContents (fun t => (twoTables t).keySize) (fun t => (twoTables t).cmpData) rangeJoin =
      [[4, 0, 0, 0, 26, 0, 0, 0, 0, 0, 0, 0]] := by
  constructor <;> decide +kernel

end EDB
