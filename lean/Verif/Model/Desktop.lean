import Verif.Model.Data

/-!
# Model of the desktop file interface

/repo/lib/Desktop-File-Interface/desktopFileInterface.c, the storage used on POSIX systems.  A file of the operating
system is its list of bytes; `fseek` followed by `fread`/`fwrite` reads or replaces the bytes at an offset, and writing
behind the end fills the gap with zero bytes (POSIX).

Simplifications: `fwrite` does not fail (disk full) and a `long` has 64 bits, so that `fseek` does not fail; the `stdio` buffer is not
modelled separately; `malloc` in MOCK_FILE_ERASE does not fail.
-/

namespace EDB

/-- `fseek(f, o, SEEK_SET); fread(_, n, 1, f)`: the bytes found (fewer than `n` at the end of the file). -/
def pread (f : List Byte) (o n : Nat) : List Byte := (f.drop o).take n

/-- `fseek(f, o, SEEK_SET); fwrite(bs, |bs|, 1, f)`. -/
def pwrite (f : List Byte) (o : Nat) (bs : List Byte) : List Byte :=
  f.take o ++ List.replicate (o - f.length) 0 ++ bs ++ f.drop (o + bs.length)

/-- The byte offset of a page: a product of two `uint32_t`, so it is reduced modulo 2^32. -/
def byteOff (pageNum pageSize : Nat) : Nat := pageSize * pageNum % 2 ^ 32

/-- desktopFileInterface.c:25-29 `FILE_READ`: the buffer afterwards and the result.  If fewer than `pageSize` bytes are
left these are copied to the buffer although the result is 0. -/
def fileRead (f buf : List Byte) (pageNum pageSize : Nat) : List Byte × Nat :=
  let got := pread f (byteOff pageNum pageSize) pageSize
  (got ++ buf.drop got.length, if got.length = pageSize ∧ 0 < pageSize then 1 else 0)

/-- desktopFileInterface.c:31-35 `FILE_WRITE` (result 1). -/
def fileWrite (f bs : List Byte) (pageNum pageSize : Nat) : List Byte := pwrite f (byteOff pageNum pageSize) bs

/-- desktopFileInterface.c:41-62 `MOCK_FILE_ERASE` (result 1 if any page is to be erased): fills the pages with bytes 1. -/
def mockErase (f : List Byte) (startPage endPage pageSize : Nat) : List Byte :=
  pwrite f (byteOff startPage pageSize) (List.replicate ((endPage - startPage) * pageSize % 2 ^ 32) 1)

/-- What one storage operation does to the bytes of a file; `mock` selects `getMockEraseFileInterface`, otherwise an
erase does nothing (desktopFileInterface.c:37-39 `FILE_ERASE`). -/
def deskEv (pageSize : Nat) (mock : Bool) (f : List Byte) : Ev → List Byte
  | .write ph p => fileWrite f (rd p 0 pageSize) ph pageSize
  | .erase lo hi => if mock then mockErase f lo hi pageSize else f

/-- The bytes of a file, initially empty, after a sequence of storage operations. -/
def desk (pageSize : Nat) (mock : Bool) (log : List Ev) : List Byte := log.foldl (deskEv pageSize mock) []

/-- The page buffer holding these bytes. -/
def toPage (bs : List Byte) : Page := fun i => bs.getD i 0

/-- MOCK_FILE_ERASE seen as the effect of an erase on one page. -/
def onesPage (pageSize : Nat) : Page := fun i => if i < pageSize then 1 else 0

end EDB
