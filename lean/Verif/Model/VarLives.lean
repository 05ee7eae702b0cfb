import Verif.Model.Calls
import Verif.Model.VarRecover

/-!
# Clients of a table with variable data, and power failures

A client that calls what it likes (`Calls`) until the power fails, opens the table again, and so on.  What reached the variable
data file until then is some of the operations the library asked for, in order.  Nothing is said about the data file and the
index: what is found of them after the power failure may be anything.
-/

namespace EDB

/-- The power failures for which the variable data file can be taken up again: less than 2^32 pages were written; if only one
page was written it does not name key 0 (`C49_false_lone_page`); and erased pages keep their contents, or the power did not
fail between the erase of the first block and the write of its first page (`C68_false_first_block`). -/
structure CutOk (c : Cfg) (l : List Ev) : Prop where
  few : (Spec.writes l).length + 1 < 2 ^ 32
  lone : ∀ p, Spec.writes l = [(0, p)] → leNat (rd p 4 c.keySize) ≠ 0
  torn : (∀ p, c.eraseFx (some p) = some p) ∨ l.getLast? ≠ some (.erase 0 c.B)

/-- The states of a table after calls and power failures; the log of the variable data file goes on. -/
inductive VarLives (c : Cfg) : Trio → Prop where
  | fresh (rb rx rv : Page) (sm : Nat → Nat × Nat) (hv : Bool) : VarLives c (Trio.fresh c rb rx rv sm hv)
  | call {s t} (h : VarLives c s) (e : Call c s t) : VarLives c t
  | power {s} (h : VarLives c s) {l : List Ev} (hl : l <+: s.v.dev.log) (hc : CutOk c l) (D : Dev) (q : Nat) (rb vrb : Page)
      (sm : Nat → Nat × Nat) (hv : Bool) (x : Idx) {d' v'}
      (e : reopenV c D ⟨Spec.image c.eraseFx l, l, q⟩ rb sm vrb hv = (d', v', 0)) : VarLives c ⟨d', x, v'⟩

end EDB
