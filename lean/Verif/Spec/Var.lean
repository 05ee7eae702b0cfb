import Verif.Spec.Trace

/-!
# Specification: records with variable-length data
-/

namespace Spec

/-- Operations of a client on a table with variable-length data. -/
inductive VOp where
  /-- insert; `none`: without variable data -/
  | put (key : Nat) (data : List UInt8) (var : Option (List UInt8))
  | flush
  | get (key : Nat)
  /-- look up a record together with its variable data and read that completely -/
  | getVar (key : Nat)
deriving DecidableEq

/-- Observed results. -/
inductive VOut where
  | code (r : Int)
  | got (r : Int) (data : Option (List UInt8))
  /-- return code, data, and the bytes of the stream (`none`: no stream) -/
  | gotVar (r : Int) (data : Option (List UInt8)) (var : Option (List UInt8))
deriving DecidableEq

/-- Operations with their results; `none`: the library did not return. -/
abbrev VHistory := List (VOp × Option VOut)

/-- A log of records, and the variable data of the keys that have some. -/
structure VLog where
  log : Log
  var : Nat → Option (List UInt8)

/-- The empty table. -/
def VLog.empty : VLog := ⟨Log.empty, fun _ => none⟩

/-- Insert a record with its variable data. -/
def VLog.put (cap : Nat) (l : VLog) (k : Nat) (v : List UInt8) (b : Option (List UInt8)) : VLog :=
  ⟨l.log.put cap (k, v), fun j => if j = k then b else l.var j⟩

/-- The correct result of looking up `k` with its variable data. -/
def vAnswer (rs : List Rec) (var : Nat → Option (List UInt8)) (k : Nat) : VOut :=
  match lookup rs k with
  | some v => .gotVar 0 (some v) (var k)
  | none => .gotVar (-1) none none

/-- The same if variable data may have been reclaimed: result 1 and no stream, or the exact bytes. -/
def vAnswerOrGone (rs : List Rec) (var : Nat → Option (List UInt8)) (k : Nat) (o : VOut) : Prop :=
  o = vAnswer rs var k ∨ ∃ v, lookup rs k = some v ∧ (var k).isSome ∧ o = .gotVar 1 (some v) none

/-- Every observation agrees with the abstract log (as `Run`, with variable data).  `ans`: allowed results of `getVar`;
`safe`: after which `getVar`s the later results are still claimed to be right. -/
def VRun (limit : VLog → Prop) (kept : Log → List Rec) (ans : VLog → Nat → VOut → Prop) (safe : VLog → Nat → Prop)
    (cap : Nat) : VLog → VHistory → Prop
  | _, [] => True
  | l, (.put k v b, o) :: t => limit (l.put cap k v b) →
      (o = some (.code 0) ∧ VRun limit kept ans safe cap (l.put cap k v b) t) ∨
      (o = some (.code 1) ∧ MayRefuse cap l.log ∧ VRun limit kept ans safe cap l t)
  | l, (.flush, o) :: t => limit ⟨l.log.flush, l.var⟩ →
      o = some (.code 0) ∧ VRun limit kept ans safe cap ⟨l.log.flush, l.var⟩ t
  | l, (.get k, o) :: t =>
      (∃ r d, o = some (.got r d) ∧ Out.got r d = answer (kept l.log) k) ∧ VRun limit kept ans safe cap l t
  | l, (.getVar k, o) :: t => (∃ a, o = some a ∧ ans l k a) ∧ (safe l k → VRun limit kept ans safe cap l t)

/-- The keys offered for insertion, in order. -/
def offeredV : List VOp → List Nat
  | [] => []
  | .put k _ _ :: t => k :: offeredV t
  | _ :: t => offeredV t

/-- The log described by the observations. -/
def vlogAfter (cap : Nat) : VLog → VHistory → VLog
  | l, [] => l
  | l, (.put k v b, some (.code 0)) :: t => vlogAfter cap (l.put cap k v b) t
  | l, (.flush, some (.code 0)) :: t => vlogAfter cap ⟨l.log.flush, l.var⟩ t
  | l, _ :: t => vlogAfter cap l t

/-- The key is not in the write buffer, or nothing has been stored. -/
def NotBuffered (l : VLog) (k : Nat) : Prop := l.log.pages = [] ∨ ∀ r ∈ l.log.buf, r.1 ≠ k

/-- Cut into pieces of the given lengths (the last ones may be shorter or empty). -/
def chop : List Nat → List UInt8 → List (List UInt8)
  | [], _ => []
  | n :: ns, bs => bs.take n :: chop ns (bs.drop n)

/-- The data starts at byte `first` of the payload of a page with `cap` payload bytes, `total` bytes long; `p` bytes
have been read: no read of the given lengths ends at the end of a page with more data to come. -/
def NoEdge (cap first total : Nat) : Nat → List Nat → Prop
  | _, [] => True
  | p, n :: ns => (0 < min n (total - p) → p + min n (total - p) < total → (first + (p + min n (total - p))) % cap ≠ 0) ∧
      NoEdge cap first total (p + min n (total - p)) ns

end Spec
