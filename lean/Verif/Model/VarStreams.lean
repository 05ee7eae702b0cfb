import Verif.Model.Var
import Verif.Spec.VarStreams

/-!
# A client with several open streams of variable data

The streams are `embedDBVarDataStream` structures (embedDB.h:263-268) that `embedDBGetVar` (embedDB.c:1540-1582) allocates
and the client keeps; `embedDBVarDataStreamRead` (embedDB.c:1927-1970) reads from one of them.  All streams share the one
variable read buffer of the state.
-/

namespace EDB

open Spec (SOp SOut)

/-- One operation of a client; `S`: the streams it got, in order (`none`: the lookup gave none). -/
def stepS (c : Cfg) (d : Data) (x : Idx) (v : Var) (S : List (Option Stream)) : SOp → Res (Data × Idx × Var × List (Option Stream) × SOut)
  | .op o => do
    let (d, x, v, out) ← stepV c d x v o
    .ok (d, x, v, S, .res out)
  | .opn k => do
    let (d, v, r, out, st) ← getVar c d v k
    .ok (d, x, v, S ++ [st], .opened r out st.isSome)
  | .read i n =>
    match S[i]? with
    | some (some st) => do
      let (v, st, bs) ← streamRead c v st n
      .ok (d, x, v, S.set i (some st), .bytes bs)
    | _ => .ok (d, x, v, S, .noStream)

/-- The observations of a client that performs the operations in order. -/
def historyS (c : Cfg) : Data → Idx → Var → List (Option Stream) → List SOp → Spec.SHistory
  | _, _, _, _, [] => []
  | d, x, v, S, op :: ops =>
    match stepS c d x v S op with
    | .ok (d', x', v', S', o) => (op, some o) :: historyS c d' x' v' S' ops
    | _ => [(op, none)]

end EDB
