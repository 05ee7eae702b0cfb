import Verif.Model.Desktop
import Verif.Model.Dataflash

/-!
# Storage operations of several files on one dataflash chip
-/

namespace EDB

deriving instance DecidableEq for DfFile

/-- What one storage operation of a file does to the chip; `DF_ERASE` does nothing (dataflashFileInterface.c:87-89). -/
def dfEv (pageSize : Nat) (chip : Chip) : DfFile × Ev → Chip
  | (f, .write ph p) => (dfWrite f chip (rd p 0 pageSize) ph).1
  | (_, .erase _ _) => chip

/-- The chip after storage operations of any number of files, in the order in which they happen. -/
def dfRun (pageSize : Nat) (chip : Chip) (ops : List (DfFile × Ev)) : Chip := ops.foldl (dfEv pageSize) chip

/-- The operations of one of the files. -/
def ofFile (f : DfFile) (ops : List (DfFile × Ev)) : List Ev := (ops.filter fun o => decide (o.1 = f)).map Prod.snd

/-- The content of a file of the chip as the library reads it. -/
def DfFile.pages (f : DfFile) (chip : Chip) : Nat → Option Page := fun i =>
  if i < f.numPages then some (toPage (chip (f.startPage + i))) else none

end EDB
