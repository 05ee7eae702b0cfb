import Verif.Model.Desktop

/-!
# Model of the SD card file interface

/repo/lib/SD-File-Interface/SDFileInterface.c on top of /repo/lib/SD-Wrapper/sdcard_c_iface.cpp.  Of the SdFat library
only this is used: a file has bytes and a position; `seek` behind the end of the file fails and leaves the position alone
(/repo/lib/SdFat/src/FatLib/FatFile.cpp:1144-1149); `read` returns what is left up to the end (738-742); `write` replaces or
appends at the position and may fail.

Simplifications: pages have fewer than 32768 bytes (`sd_fread` keeps the number of bytes read in an `int16_t`); `size_t`
and `unsigned long` have at least 32 bits; a write that fails leaves no bytes.
-/

namespace EDB

/-- An open file (sdcard_c_iface.cpp: `struct _SD_File`). -/
structure SdFile where
  bytes : List Byte
  pos : Nat

namespace SdFile

/-- sdcard_c_iface.cpp:114-122 `sd_fseek` (`true` = 0, `false` = -1). -/
def seek (f : SdFile) (o : Nat) : SdFile × Bool := if o ≤ f.bytes.length then ({ f with pos := o }, true) else (f, false)

/-- `File32::read`: the bytes found; the position moves behind them. -/
def take (f : SdFile) (n : Nat) : SdFile × List Byte :=
  let got := pread f.bytes f.pos n
  ({ f with pos := f.pos + got.length }, got)

/-- `File32::write` and sdcard_c_iface.cpp:124-131 `sd_fwrite`; `ok`: does the card accept it? -/
def put (f : SdFile) (bs : List Byte) (ok : Bool) : SdFile :=
  if ok then { bytes := pwrite f.bytes f.pos bs, pos := f.pos + bs.length } else f

end SdFile

/-- SDFileInterface.c:60-64 `FILE_READ`: file, buffer, result.  The result of `sd_fseek` is not looked at. -/
def sdRead (f : SdFile) (buf : List Byte) (pageNum pageSize : Nat) : SdFile × List Byte × Nat :=
  let f := (f.seek (byteOff pageNum pageSize)).1
  let (f, got) := f.take pageSize
  (f, got ++ buf.drop got.length, got.length / pageSize)

/-- SDFileInterface.c:75-83: the loop that fills the gap up to the page to be written, four bytes at a time.
`none`: a write failed (the function returns -1).  `ok i` tells whether the `i`-th write is accepted. -/
def sdFill (ok : Nat → Bool) (required : Nat) : Nat → SdFile → Nat → Nat → Option (SdFile × Nat)
  | 0, f, _, i => some (f, i)
  | n + 1, f, size, i =>
    if size < required then
      if ok i then sdFill ok required n (f.put (List.replicate 4 255) true) (size + 4) (i + 1)
      else none
    else some (f, i)

/-- SDFileInterface.c:66-93 `FILE_WRITE`: the file and the result.  `ok i` tells whether the card accepts the `i`-th write of
this call.  The result of the last write is stored in `writeSuccess` and not looked at. -/
def sdWrite (f : SdFile) (bs : List Byte) (pageNum pageSize : Nat) (ok : Nat → Bool) : SdFile × Int :=
  let o := byteOff pageNum pageSize
  let filled :=
    if f.bytes.length < o then sdFill ok o o (f.seek f.bytes.length).1 f.bytes.length 0 else some (f, 0)
  match filled with
  | none => (f, -1)
  | some (f, i) =>
    let (f, s) := f.seek o
    if s then (f.put bs (ok i), 1) else (f, -1)

/-- What one storage operation does to a file on a card that accepts every write; an erase does nothing
(SDFileInterface.c:95-97 `FILE_ERASE`). -/
def sdEv (pageSize : Nat) (f : SdFile) : Ev → SdFile
  | .write ph p => (sdWrite f (rd p 0 pageSize) ph pageSize fun _ => true).1
  | .erase _ _ => f

/-- A file, initially empty, after a sequence of storage operations. -/
def sdRun (pageSize : Nat) (log : List Ev) : SdFile := log.foldl (sdEv pageSize) ⟨[], 0⟩

/-- The success of a write as `embedDB.c` sees it: any result but 0 (embedDB.c:2028, 2084, 2153, 2208). -/
def tookPlace (r : Int) : Bool := r ≠ 0

end EDB
