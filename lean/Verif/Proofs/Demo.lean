import Verif.Proofs.Node
import Verif.Spec.Num

/-! A concrete configuration used by the non-vacuity examples and by the counterexamples: 4-byte keys, 4-byte data,
two records per 26-byte page, the supplied three-way comparator, an erase that leaves page contents alone, a reliable
device, and a constant in-page estimate. -/

namespace EDB

theorem cmpOk_cmp3 (K : Nat) : CmpOk (fun a b => Spec.cmp3 a b) K where
  lt a b _ _ := by simp only [Spec.cmp3]; split_ifs <;> omega
  eq a b _ _ := by simp only [Spec.cmp3]; split_ifs <;> constructor <;> intro h <;> first | omega | (exfalso; revert h; decide)
  gt a b _ _ := by simp only [Spec.cmp3]; split_ifs <;> constructor <;> intro h <;> first | omega | (exfalso; revert h; decide)

/-- See the file comment. -/
def demo : Cfg where
  pageSize := 26
  keySize := 4
  dataSize := 4
  bitmapSize := 0
  N := 4
  B := 2
  numIdx := 0
  numVar := 0
  splSize := 4
  maxErr := 1
  useIndex := false
  useMaxMin := false
  useBmap := false
  useVdata := false
  rlc := false
  binSearch := false
  noClean := false
  cmpKey := fun a b => Spec.cmp3 a b
  cmpData := fun a b => Spec.cmp3 (leNat a) (leNat b)
  updBm := fun _ b => b
  buildBm := fun _ _ => []
  est := fun _ _ => 0
  eraseFx := id
  ioOk := fun _ => true

theorem demo_layout : demo.Layout := ⟨by decide, by decide, fun _ _ h => h⟩

theorem demo_cmp (K : Nat) : CmpOk demo.cmpKey K := cmpOk_cmp3 K

end EDB
