import Verif.Props.Layout

/-!
# Layout properties that are false of the code

The first two are general: they hold for *every* configuration with the given combination of features.
-/

namespace EDB

theorem key_ne_zero {r : Page} {o n : Nat} (hn : 0 < n) (h : r o = 255) : leNat (rd r o n) ≠ 0 := by
  obtain ⟨k, rfl⟩ : ∃ k, n = k + 1 := ⟨n - 1, by omega⟩
  unfold rd
  rw [List.range_succ_eq_map, List.map_cons]
  unfold leNat
  simp only [Nat.add_zero, h]
  have : (255 : UInt8).toNat = 255 := rfl
  omega

/-- C22 is false for every table that uses bitmaps without an index (a combination `embedDBInit` accepts): no header
space is reserved for the bitmap at offset 6, so the bitmap update of the first insert overwrites the first record.
Whatever the sizes, a bitmap function that sets every bit makes the key 0 just stored read back as something else. -/
theorem C22_false_bmap (c : Cfg) (hb : c.useBmap = true) (hi : c.useIndex = false) (hm : c.useMaxMin = false)
    (hk : 0 < c.keySize) (hs : 0 < c.bitmapSize) (data : List Byte) (loc : Nat) :
    let c' : Cfg := { c with updBm := fun _ b => List.replicate b.length 255 }
    slotKey c' (appendRec c' (initPage c') 0 data loc) 0 ≠ 0 := by
  intro c'
  have hh : c'.hdr = 6 := by unfold Cfg.hdr; simp [c', hi, hm]
  unfold appendRec
  simp only [show c'.useBmap = true from hb, if_true]
  generalize (if c'.useMaxMin = true then _ else _ : Page) = q
  unfold slotKey updHdrBm slotOff
  rw [hh, Nat.mul_zero, Nat.zero_add]
  apply key_ne_zero hk
  obtain ⟨s, es⟩ : ∃ s, c'.bitmapSize = s + 1 := ⟨c.bitmapSize - 1, by show c.bitmapSize = _; omega⟩
  show wr q 6 (List.replicate (rd q 6 c'.bitmapSize).length 255) 6 = 255
  rw [rd_length, es]
  unfold wr
  rw [if_pos (by simp)]
  rfl

/-- C22 is false for every table that uses min/max without an index, or with an index whose bitmap is shorter than 8
bytes: `EMBEDDB_MIN_OFFSET` is the constant 14.  Whatever the page size, if data has at least 4 bytes then the first
record inserted in a page, with key 0 and all data bytes 255, reads back with another key. -/
theorem C22_false_maxMin (c : Cfg) (hm : c.useMaxMin = true) (hb : c.useBmap = false)
    (hs : c.useIndex = true → c.bitmapSize < 8) (hk : 0 < c.keySize) (hd : 4 ≤ c.dataSize) (loc : Nat) :
    slotKey c (appendRec c (initPage c) 0 (List.replicate c.dataSize 255) loc) 0 ≠ 0 := by
  have hh : c.hdr < 14 + c.keySize * 2 + c.dataSize * 2 ∧ 14 + c.keySize * 2 ≤ c.hdr := by
    unfold Cfg.hdr
    rw [if_pos hm]
    split_ifs with h
    · have := hs h; omega
    · omega
  have hc : pageCount (initPage c) = 0 := count_init c
  unfold appendRec
  simp only [hc, hm, hb, if_true]
  generalize incCount _ = q
  unfold updMinMax
  simp only [ne_eq, not_true_eq_false, if_false, Bool.false_eq_true]
  generalize wr (wr q _ _) _ _ = q
  unfold slotKey slotOff
  rw [Nat.mul_zero, Nat.zero_add]
  apply key_ne_zero hk
  have m : minOff = 14 := rfl
  by_cases h : minOff + c.keySize * 2 + c.dataSize ≤ c.hdr
  · unfold wr
    rw [if_pos (by rw [List.length_replicate]; omega), List.getD_eq_getElem?_getD,
      List.getElem?_replicate, if_pos (by omega)]
    rfl
  · rw [wr_apply_out _ _ _ _ (by omega)]
    unfold wr
    rw [if_pos (by rw [List.length_replicate]; omega), List.getD_eq_getElem?_getD,
      List.getElem?_replicate, if_pos (by omega)]
    rfl

/-- A 512-byte-page configuration. -/
def demoBig : Cfg := { demo with pageSize := 512 }

/-- The wrong layouts are accepted by `embedDBInit`. -/
theorem C22_false_accepted :
    initAccepts { demoBig with useBmap := true, bitmapSize := 1 } 2 = .ok true ∧
    initAccepts { demoBig with useMaxMin := true } 2 = .ok true ∧
    initAccepts { demoBig with useMaxMin := true, useIndex := true, bitmapSize := 1, N := 8, numIdx := 4 } 4 = .ok true := by
  decide +kernel

/-- C47 is false: 8-byte keys, 120-byte data and variable data are accepted, but the record size of 132 bytes is stored
as -124, and the capacity of a 512-byte page becomes 65532 records. -/
theorem C47_false_record :
    let c : Cfg := { demoBig with keySize := 8, dataSize := 120, useVdata := true, numVar := 4 }
    c.Typed ∧ initAccepts c 4 = .ok true ∧ c.recSize = 132 ∧ cRecSize c = -124 ∧ cMaxRec c = .ok 65532 := by
  refine ⟨⟨by decide, by decide, by decide, by decide, by decide, by decide, by decide, by decide⟩, ?_⟩
  decide +kernel

/-- C47 is false: with min/max, 4-byte keys and 100-byte data the header of 222 bytes is stored as -34, so records would
be stored before the page buffer. -/
theorem C47_false_header :
    let c : Cfg := { demoBig with dataSize := 100, useMaxMin := true, useIndex := true, bitmapSize := 8, N := 8, numIdx := 4 }
    c.Typed ∧ initAccepts c 4 = .ok true ∧ c.hdr = 222 ∧ cHdr c = -34 := by
  refine ⟨⟨by decide, by decide, by decide, by decide, by decide, by decide, by decide, by decide⟩, ?_⟩
  decide +kernel

/-- C47 is false: nothing checks that a page can hold a record; here `maxRecordsPerPage` is 0. -/
theorem C47_false_capacity :
    let c : Cfg := { demoBig with pageSize := 64, dataSize := 100 }
    c.Typed ∧ initAccepts c 2 = .ok true ∧ cMaxRec c = .ok 0 := by
  refine ⟨⟨by decide, by decide, by decide, by decide, by decide, by decide, by decide, by decide⟩, ?_⟩
  decide +kernel

/-- C47 is false: unlike the data and the index file, the variable data file has no minimum size.  A table with no variable
pages at all is accepted; its first variable insert computes `currentVarLoc % (numVarPages * pageSize)` (embedDB.c:1070),
a division by zero. -/
theorem C47_false_var :
    let c : Cfg := { demoBig with dataSize := 8, useVdata := true, numVar := 0 }
    c.Typed ∧ initAccepts c 4 = .ok true ∧ c.numVar * c.pageSize = 0 := by
  refine ⟨⟨by decide, by decide, by decide, by decide, by decide, by decide, by decide, by decide⟩, ?_⟩
  decide +kernel

end EDB
