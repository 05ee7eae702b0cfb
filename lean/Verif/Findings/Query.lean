import Verif.Proofs.AggFuncs
import Verif.Proofs.Join

/-! # Where the query layer does not have the stated property -/

namespace EDB

/-- C36 is false for signed columns of width 5..8: `128 << ((colSize - 1) * 8)` (advancedQueries.c:866) shifts a
32-bit `int` by 32 or more, so SUM has undefined behaviour on every row. -/
theorem C36_sum_signed_false (s : Schema) (col : Nat) (hc : col < s.length) (hs : s.getD col 0 ≤ -5) (v : Nat) (r : List Byte)
    (g : List (List Byte)) : feed (sumAgg s col) (.sum v) (r :: g) = .ub := by
  have : (sumAgg s col).add (.sum v) r = .ub := by
    show (if col < s.length then _ else _) = _
    rw [if_pos hc]
    unfold sumAdd
    simp only [if_pos (show s.getD col 0 < 0 by omega), if_pos (show min (s.getD col 0).natAbs 8 ≥ 5 by omega)]
    rfl
  unfold feed
  rw [this]
  rfl

example : feed (sumAgg [4, -8] 1) (.sum 0) [[1, 0, 0, 0, 1, 0, 0, 0, 0, 0, 0, 0]] = .ub := by decide

/-- C50 is false in the same way: AVG (advancedQueries.c:1070). -/
theorem C50_avg_signed_false (quot : Int → Nat → Nat) (size : Int) (s : Schema) (col : Nat) (hc : col < s.length) (hs : s.getD col 0 ≤ -5)
    (n v : Nat) (r : List Byte) (g : List (List Byte)) : feed (avgAgg quot s col size) (.avg n v) (r :: g) = .ub := by
  have : (avgAgg quot s col size).add (.avg n v) r = .ub := by
    show (if col < s.length then _ else _) = _
    rw [if_pos hc]
    unfold sumAdd
    simp only [if_pos (show s.getD col 0 < 0 by omega), if_pos (show min (s.getD col 0).natAbs 8 ≥ 5 by omega)]
    rfl
  unfold feed
  rw [this]
  rfl

/-- C36, same for a sum that leaves the `int64_t` range: with two 4-byte columns it cannot happen in practice, but the
code's signed addition is undefined from there on. -/
theorem C36_sum_signed_overflow (s : Schema) (col : Nat) (hc : col < s.length) (hs : s.getD col 0 < 0) (v : Nat) (r : List Byte)
    (h : fits 64 (asInt64 v + leInt ((r.drop (colOffset s col)).take (min (s.getD col 0).natAbs 8))) = false) :
    (sumAgg s col).add (.sum v) r = .ub := by
  show (if col < s.length then _ else _) = _
  rw [if_pos hc]
  unfold sumAdd
  simp only [if_pos hs, h, Bool.false_eq_true, if_false, ite_self]
  rfl

/-- An input that yields one row and, like a table scan with an upper key bound (embedDB.c:1776-1789), overwrites its
record buffer with the next, non-qualifying record before returning 0. -/
def boundedScan (schema : Schema) (rows : List (List Byte)) (after : List Byte) : Oper Unit where
  σ := List (List Byte) × List Byte
  schema := schema
  start := (rows, [])
  next w s := match s.1 with
    | [] => .ok (w, ([], after), false)
    | r :: rs => .ok (w, (rs, r), true)
  buf s := s.2

/-- C37: after the join has returned 0, calling it again can return a row that pairs a record outside the scan's range.
Left: keys 1 (then the scan stops at 5); right: keys 1, 5.  The client gets the row for 1, then 0, then a row for 5. -/
theorem C37_row_after_end :
    (drain (keyJoin 9 (boundedScan [1] [[1]] [5]) (boundedScan [1] [[1], [5]] [9]) []) 4 ()
      ((keyJoin 9 (boundedScan [1] [[1]] [5]) (boundedScan [1] [[1], [5]] [9]) []).start) >>= fun (w, s, rows, fin) =>
        (keyJoin 9 (boundedScan [1] [[1]] [5]) (boundedScan [1] [[1], [5]] [9]) []).next w s >>= fun (_, s', got) =>
          Res.ok (rows, fin, got, s'.buf)) = .ok ([[1, 1]], true, true, [5, 5]) := by decide +kernel

/-- C39: because `nextAggregate` calls its input once more after the end, COUNT over such a join reports an extra
group although the join has a single row. -/
theorem C39_aggregate_join_false :
    (drain (aggregate 9 (keyJoin 9 (boundedScan [1] [[1]] [5]) (boundedScan [1] [[1], [5]] [9]) []) [countAgg] [.cnt 0]
        (fun _ _ => true)) 9 ()
      ((aggregate 9 (keyJoin 9 (boundedScan [1] [[1]] [5]) (boundedScan [1] [[1], [5]] [9]) []) [countAgg] [.cnt 0]
        (fun _ _ => true)).start) >>= fun (_, _, rows, fin) => Res.ok (rows, fin)) =
      .ok ([[1, 0, 0, 0], [1, 0, 0, 0]], true) ∧
    Spec.join 1 [[1]] [[1], [5]] = [[1, 1]] := by decide +kernel

end EDB
