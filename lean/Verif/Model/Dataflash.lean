import Verif.Model.Bytes

/-!
# Model of the dataflash file interface

/repo/lib/Dataflash-File-Interface/dataflashFileInterface.c.  A file is a window of `numPages` pages of one chip, which is
shared by all files.  A chip is an array of pages; `dfread` and `dfwrite` (/repo/lib/Dataflash-Wrapper/dataflash_c_iface.cpp:72-103)
transfer one page and always return the number of bytes asked for.  `DF_ERASE`, `DF_CLOSE`, `DF_OPEN` and `DF_FLUSH` do nothing and
return 1 (87-101); in particular opening a file for writing anew does not clear it.

Simplification: the page size is the one of the chip.
-/

namespace EDB

/-- dataflashFileInterface.c:41-44 `DF_FILE_INFO`. -/
structure DfFile where
  startPage : Nat
  numPages : Nat

/-- The pages of the chip. -/
abbrev Chip := Nat → List Byte

/-- dataflashFileInterface.c:62,77 `physicalPage`, a `uint32_t`. -/
def DfFile.phys (f : DfFile) (pageNum : Nat) : Nat := (f.startPage + pageNum) % 2 ^ 32

/-- dataflashFileInterface.c:57-70 `DF_READ`: buffer and result. -/
def dfRead (f : DfFile) (chip : Chip) (buf : List Byte) (pageNum : Nat) : List Byte × Nat :=
  if pageNum ≥ f.numPages then (buf, 0) else (chip (f.phys pageNum), 1)

/-- dataflashFileInterface.c:72-85 `DF_WRITE`: chip and result. -/
def dfWrite (f : DfFile) (chip : Chip) (bs : List Byte) (pageNum : Nat) : Chip × Nat :=
  if pageNum ≥ f.numPages then (chip, 0) else (fun i => if i = f.phys pageNum then bs else chip i, 1)

/-- dataflashFileInterface.c:95-97 `DF_OPEN` in either mode. -/
def dfOpen (chip : Chip) : Chip × Nat := (chip, 1)

end EDB
