import Verif.Model.Bytes

/-!
# Model of opening and closing the files of a table

`embedDBInit` and `embedDBClose` as far as they open and close files, on the desktop file interface
(/repo/lib/Desktop-File-Interface/desktopFileInterface.c) and the SD card file interface
(/repo/lib/SD-File-Interface/SDFileInterface.c with /repo/lib/SD-Wrapper/sdcard_c_iface.cpp).

Simplifications: the three files have different names; whether `fopen` succeeds for another reason than the existence of the file, what the
recovery functions return, and whether the checks of the configuration succeed are parameters of the model (the recovery functions
themselves are in Model/Recover, Model/IdxRecover and Model/VarRecover, the checks in Model/Init); malloc does not fail.
-/

namespace EDB

/-- The files of a table. -/
inductive FileId where
  | data | idx | var
  deriving DecidableEq

/-- embedDB.h:108-109 `EMBEDDB_FILE_MODE_W_PLUS_B`, `EMBEDDB_FILE_MODE_R_PLUS_B`. -/
inductive FMode where
  | wPlus | rPlus
  deriving DecidableEq

/-- The files by name (`none`: there is no such file), the member `file` of each `FILE_INFO` (`true`: an open stream, `false`: NULL), and the number of
open streams of the program. -/
structure Disk where
  content : FileId → Option (List Byte)
  handle : FileId → Bool
  live : Nat

/-- A function changed at one place. -/
def FileId.set {α : Type} (f : FileId) (g : FileId → α) (v : α) : FileId → α := fun i => if i = f then v else g i

/-- desktopFileInterface.c:76-92 and SDFileInterface.c:111-127 `FILE_OPEN` with sdcard_c_iface.cpp:80-104 `sd_fopen`.  `may`: nothing else keeps the file from
being opened or created. -/
def fileOpen (may : FileId → FMode → Bool) (s : Disk) (f : FileId) : FMode → Disk × Bool
  | .wPlus =>
    if may f .wPlus then (⟨f.set s.content (some []), f.set s.handle true, s.live + 1⟩, true)
    else ({ s with handle := f.set s.handle false }, false)
  | .rPlus =>
    if may f .rPlus && (s.content f).isSome then ({ s with handle := f.set s.handle true, live := s.live + 1 }, true)
    else ({ s with handle := f.set s.handle false }, false)

/-- desktopFileInterface.c:64-69 `FILE_CLOSE` (`fclose(NULL)` is undefined) and, with `sd`, SDFileInterface.c:99-104 with
sdcard_c_iface.cpp:64-71 `sd_fclose`, which accepts NULL. -/
def fileClose (sd : Bool) (s : Disk) (f : FileId) : Res Disk :=
  if s.handle f then .ok { s with handle := f.set s.handle false, live := s.live - 1 }
  else if sd then .ok s else .ub

/-- desktopFileInterface.c:17-24 `tearDownFile` and SDFileInterface.c:52-58 `tearDownSDFile`, as far as the stream is concerned. -/
def tearDown (s : Disk) (f : FileId) : Disk :=
  if s.handle f then { s with handle := f.set s.handle false, live := s.live - 1 } else s

/-- What the configuration says. -/
structure OpenPar where
  reset : Bool
  useIndex : Bool
  useVar : Bool
  rlc : Bool
  /-- the checks of embedDB.c:139-222 succeed -/
  early : Bool
  /-- the checks of embedDB.c:236-240 and 617-629 succeed -/
  idxOk : Bool
  /-- the check of embedDB.c:256-260 succeeds -/
  varOk : Bool

/-- What recovery finds. -/
structure OpenFound where
  /-- result of `embedDBInitDataFromFile` or its version for record-level consistency -/
  data : Int
  /-- `nextDataPageId > 0` -/
  pages : Bool
  /-- result of `embedDBInitVarDataFromFile` -/
  var : Int

/-- Are `state->dataFile`, `state->indexFile` and `state->varFile` set (not NULL)? -/
abbrev Ptrs := FileId → Bool

/-- embedDB.c:274-316 `embedDBInitData`. -/
def openData (p : OpenPar) (may : FileId → FMode → Bool) (w : OpenFound) (ptr : Ptrs) (s : Disk) : Disk × Int :=
  if ptr .data then
    if p.reset then
      let (s, ok) := fileOpen may s .data .wPlus
      (s, if ok then 0 else -1)
    else
      let (s, ok) := fileOpen may s .data .rPlus
      (s, if ok then w.data else -1)
  else (s, -1)

/-- embedDB.c:599-654 `embedDBInitIndex`; `embedDBInitIndexFromFile` returns 0. -/
def openIndex (p : OpenPar) (may : FileId → FMode → Bool) (ptr : Ptrs) (s : Disk) : Disk × Int :=
  if p.idxOk && ptr .idx then
    let (s, ok) := if p.reset then (s, false) else fileOpen may s .idx .rPlus
    if ok then (s, 0)
    else
      let (s, ok) := fileOpen may s .idx .wPlus
      (s, if ok then 0 else -1)
  else (s, -1)

/-- embedDB.c:696-722 `embedDBInitVarData`; the pointer is not checked and `FILE_OPEN` dereferences it. -/
def openVar (p : OpenPar) (may : FileId → FMode → Bool) (w : OpenFound) (ptr : Ptrs) (s : Disk) : Res (Disk × Int) :=
  if ptr .var then
    let (s, ok) := if !p.reset && (w.pages || p.rlc) then fileOpen may s .var .rPlus else (s, false)
    if ok then .ok (s, w.var)
    else
      let (s, ok) := fileOpen may s .var .wPlus
      .ok (s, if ok then 0 else -1)
  else .ub

/-- embedDB.c:139-272 `embedDBInit`: the files, the pointers and the result. -/
def openAll (p : OpenPar) (may : FileId → FMode → Bool) (w : OpenFound) (ptr : Ptrs) (s : Disk) : Res (Disk × Ptrs × Int) :=
  if p.early then
    let (s, r) := openData p may w ptr s
    if r ≠ 0 then .ok (s, ptr, r)
    else
      let (s, ptr, r) := if p.useIndex then ((openIndex p may ptr s).1, ptr, (openIndex p may ptr s).2) else (s, FileId.idx.set ptr false, 0)
      if r ≠ 0 then .ok (s, ptr, r)
      else if p.useVar then
        if p.varOk then (openVar p may w ptr s).bind fun (s, r) => .ok (s, ptr, r)
        else .ok (s, ptr, -1)
      else .ok (s, FileId.var.set ptr false, 0)
  else .ok (s, ptr, -1)

/-- embedDB.c:2341-2350 `embedDBClose`: the files. -/
def closeAll (sd : Bool) (ptr : Ptrs) (s : Disk) : Res Disk := do
  let s ← if ptr .data then fileClose sd s .data else .ok s
  let s ← if ptr .idx then fileClose sd s .idx else .ok s
  if ptr .var then fileClose sd s .var else .ok s

end EDB
