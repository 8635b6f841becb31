import Verif.Lemmas.AtariOps
/-! # The template disks of `/repo/atrcopy/templates` are consistent -/
namespace Atr

/-- first ten bytes and bitmap of sector 360 on `templates/dos2sd.atr` and `templates/dos2dd.atr` -/
def blankVtoc : Bytes :=
  [0x02, 0xc3, 0x02, 0xc3, 0x02, 0, 0, 0, 0, 0, 0x0f] ++ List.replicate 44 0xff ++ [0x00, 0x7f] ++ List.replicate 43 0xff

/-- header, zeros up to the VTOC sector, the blank VTOC, and the bytes `tail` from sector 361 on -/
def diskImage (hdr : Bytes) (pos ss : Nat) (tail : Bytes) : Bytes :=
  (hdr ++ List.replicate (pos - 16) 0) ++ ((blankVtoc ++ List.replicate (ss - 100) 0) ++ tail)

/-- image whose only nonzero bytes are the ATR header and the VTOC -/
def blankImage (hdr : Bytes) (pos ss rest : Nat) : Bytes := diskImage hdr pos ss (List.replicate rest 0)

theorem blankVtoc_length : blankVtoc.length = 100 := by decide

theorem blankVtoc_free : ∀ s ∈ freeList (unpackbits (slice blankVtoc 10 100)), 4 ≤ s ∧ (s < 360 ∨ 368 < s) := by
  decide +kernel

theorem disk_sec {hdr : Bytes} {pos ss : Nat} {tail : Bytes} {h : AHeader} (h16 : hdr.length = 16) (hp : 16 ≤ pos) (hs : 100 ≤ ss)
    (hss : h.sectorSize = ss) (hpos : h.dpos 360 = pos) :
    sec h (diskImage hdr pos ss tail) 360 = blankVtoc ++ List.replicate (ss - 100) 0 := by
  have hl1 : (hdr ++ List.replicate (pos - 16) (0 : UInt8)).length = pos := by
    rw [List.length_append, List.length_replicate, h16]; omega
  have hl2 : (blankVtoc ++ List.replicate (ss - 100) (0 : UInt8)).length = ss := by
    rw [List.length_append, List.length_replicate, blankVtoc_length]; omega
  unfold sec diskImage
  rw [hpos, hss]
  generalize hdr ++ List.replicate (pos - 16) (0 : UInt8) = A at *
  generalize blankVtoc ++ List.replicate (ss - 100) (0 : UInt8) = B at *
  unfold slice
  rw [List.take_append, List.drop_append, List.take_append]
  rw [List.drop_eq_nil_of_le (by rw [List.length_take]; omega), List.length_take, hl1]
  simp [hl2]
  apply List.take_of_length_le; omega

theorem disk_freeMap {hdr : Bytes} {pos ss : Nat} {tail : Bytes} {h : AHeader} (h16 : hdr.length = 16) (hp : 16 ≤ pos) (hs : 100 ≤ ss)
    (hss : h.sectorSize = ss) (hpos : h.dpos 360 = pos) :
    freeMap h (diskImage hdr pos ss tail) = unpackbits (slice blankVtoc 10 100) := by
  unfold freeMap
  rw [disk_sec h16 hp hs hss hpos]
  have : ∀ t : Bytes, slice (blankVtoc ++ t) 10 100 = slice blankVtoc 10 100 := by
    intro t
    unfold slice
    rw [List.take_append_of_le_length (by rw [blankVtoc_length]; omega)]
  rw [this]

theorem disk_dir {hdr : Bytes} {pos ss : Nat} {tail : Bytes} {h : AHeader} (h16 : hdr.length = 16) (hp : 16 ≤ pos) (hs : 100 ≤ ss)
    (hss : h.sectorSize = ss) (hpos : h.dpos 360 = pos) (hni : h.numInitialSectors ≤ 3) :
    slice (diskImage hdr pos ss tail) (h.dpos 361) (h.dpos 361 + 8 * h.sectorSize) = tail.take (8 * ss) := by
  have hd361 : h.dpos 361 = pos + ss := by
    have : h.dpos 361 = h.dpos 360 + 1 * h.sectorSize := dpos_add h 360 1 (by omega)
    rw [hpos, hss] at this; omega
  have hl1 : (hdr ++ List.replicate (pos - 16) (0 : UInt8)).length = pos := by
    rw [List.length_append, List.length_replicate, h16]; omega
  have hl2 : (blankVtoc ++ List.replicate (ss - 100) (0 : UInt8)).length = ss := by
    rw [List.length_append, List.length_replicate, blankVtoc_length]; omega
  unfold diskImage
  rw [hd361, hss]
  generalize hdr ++ List.replicate (pos - 16) (0 : UInt8) = A at *
  generalize blankVtoc ++ List.replicate (ss - 100) (0 : UInt8) = B at *
  apply List.ext_getElem?
  intro k
  rw [getElem?_slice, List.getElem?_append_right (by omega), List.getElem?_append_right (by omega), hl1, hl2, List.getElem?_take]
  by_cases hk : k < 8 * ss
  · rw [if_pos (by omega), if_pos hk]; congr 1; omega
  · rw [if_neg (by omega), if_neg hk]

theorem blankPool_length : (freeList (unpackbits (slice blankVtoc 10 100))).length = 707 := by decide +kernel

theorem blank_consistent {hdr : Bytes} {pos ss rest : Nat} {h : AHeader} (h16 : hdr.length = 16)
    (ho : openHeader (blankImage hdr pos ss rest) = .ok h) (hss : h.sectorSize = ss) (hss2 : ss = 128 ∨ ss = 256)
    (hpos : h.dpos 360 = pos) (hmax : 719 ≤ h.maxSectors) (hrest : 8 * ss ≤ rest) (hed : h.imageSize ≠ 133120) :
    Consistent h (blankImage hdr pos ss rest) [] := by
  have g := openHeader_geom ho
  have hp16 := dpos_ge g (by omega) (s := 360) (by omega)
  have hsec := disk_sec (tail := List.replicate rest 0) h16 (by omega) (by omega) hss hpos
  have hfm := disk_freeMap (tail := List.replicate rest 0) h16 (by omega) (by omega) hss hpos
  have hdirz : slice (blankImage hdr pos ss rest) (h.dpos 361) (h.dpos 361 + 8 * h.sectorSize) = List.replicate (8 * ss) 0 := by
    rw [blankImage, disk_dir h16 (by omega) (by omega) hss hpos g.ni, List.take_replicate]
    congr 1; omega
  have hraw : ∀ e ∈ rawEntries h (blankImage hdr pos ss rest), e.length = 16 ∧ e.head? = some 0 := by
    unfold rawEntries
    rw [hdirz]
    apply chunks_replicate_mem 16 _ (by omega)
    rcases hss2 with h | h <;> rw [h] <;> decide
  refine { opens := ho, sectorSize := by omega, size := by omega, ed := fun he => absurd he hed, vtocCode := ?_, dir := ?_, term := ?_,
           stable := by simp, chains := by simp, disjoint := by simp, free := ?_, first := by simp }
  · right; rw [blankImage, hsec]; rfl
  · exact scanDir_term h 0 _ fun e he => hraw e (List.mem_of_head? he)
  · intro s hs
    unfold IsFree at hs
    rw [blankImage, hfm] at hs
    have hlt := (List.getElem?_eq_some_iff.mp hs).1
    have hlen : (unpackbits (slice blankVtoc 10 100)).length = 720 := by
      rw [length_unpackbits, length_slice, blankVtoc_length]; omega
    have := blankVtoc_free s ((mem_freeList _ _).mpr hs)
    unfold UserSec
    omega
  · intro i e _ _ he
    exact (hraw e (List.mem_of_getElem? he)).2

/-- header of `templates/dos2sd.atr` -/
def sdHeader : Bytes := [0x96, 0x02, 0x80, 0x16, 0x80, 0, 0, 0, 0, 0, 0, 0, 0, 0, 0, 0]
/-- header of `templates/dos2dd.atr` -/
def ddHeader : Bytes := [0x96, 0x02, 0xe8, 0x2c, 0, 1, 0, 0, 0, 0, 0, 0, 0, 0, 0, 0]

/-- the bytes of `templates/dos2sd.atr` -/
def sdDisk : Bytes := blankImage sdHeader (16 + 359 * 128) 128 (360 * 128)
/-- the bytes of `templates/dos2dd.atr` -/
def ddDisk : Bytes := blankImage ddHeader (16 + 384 + 356 * 256) 256 (360 * 256)

/-- `dos2sd.atr`, opened -/
def sdH : AHeader :=
  { imageSize := 92160, sectorSize := 128, payloadBytes := 125, headerOffset := 16, maxSectors := 720 }
/-- `dos2dd.atr`, opened -/
def ddH : AHeader :=
  { imageSize := 183936, sectorSize := 256, payloadBytes := 253, initialSectorSize := 128, numInitialSectors := 3,
    headerOffset := 16, maxSectors := 720 }

theorem slice_disk {hdr : Bytes} {pos ss : Nat} {tail : Bytes} (h16 : hdr.length = 16) : slice (diskImage hdr pos ss tail) 0 16 = hdr := by
  unfold slice diskImage
  rw [List.append_assoc, List.drop_zero, List.take_append_of_le_length (by omega), List.take_of_length_le (by omega)]

theorem diskImage_length {hdr : Bytes} {pos ss : Nat} {tail : Bytes} (h16 : hdr.length = 16) (hp : 16 ≤ pos) (hs : 100 ≤ ss) :
    (diskImage hdr pos ss tail).length = pos + ss + tail.length := by
  unfold diskImage
  rw [List.length_append, List.length_append, List.length_append, List.length_append, List.length_replicate, List.length_replicate,
    h16, blankVtoc_length]
  omega

/-- single density disk with the given bytes from sector 361 on -/
theorem sdImage_opens {tail : Bytes} (ht : tail.length = 360 * 128) :
    openHeader (diskImage sdHeader (16 + 359 * 128) 128 tail) = .ok sdH := by
  have h1 : readHeader (diskImage sdHeader (16 + 359 * 128) 128 tail) = { imageSize := 92160, sectorSize := 128, headerOffset := 16 } := by
    unfold readHeader
    rw [slice_disk rfl]
    rfl
  have h2 : (diskImage sdHeader (16 + 359 * 128) 128 tail).length = 92176 := by
    rw [diskImage_length rfl (by omega) (by omega), ht]
  unfold openHeader
  rw [h1, h2]
  rfl

theorem ddImage_opens {tail : Bytes} (ht : tail.length = 360 * 256) :
    openHeader (diskImage ddHeader (16 + 384 + 356 * 256) 256 tail) = .ok ddH := by
  have h1 : readHeader (diskImage ddHeader (16 + 384 + 356 * 256) 256 tail) = { imageSize := 183936, sectorSize := 256, headerOffset := 16 } := by
    unfold readHeader
    rw [slice_disk rfl]
    rfl
  have h2 : (diskImage ddHeader (16 + 384 + 356 * 256) 256 tail).length = 183952 := by
    rw [diskImage_length rfl (by omega) (by omega), ht]
  unfold openHeader
  rw [h1, h2]
  rfl

theorem sdDisk_opens : openHeader sdDisk = .ok sdH := sdImage_opens List.length_replicate

theorem ddDisk_opens : openHeader ddDisk = .ok ddH := ddImage_opens List.length_replicate

theorem sdDisk_consistent : Consistent sdH sdDisk [] :=
  blank_consistent rfl sdDisk_opens rfl (Or.inl rfl) rfl (by decide) (by decide) (by decide)

theorem ddDisk_consistent : Consistent ddH ddDisk [] :=
  blank_consistent rfl ddDisk_opens rfl (Or.inr rfl) rfl (by decide) (by decide) (by decide)

theorem sdDisk_pool : (freePool sdH sdDisk).length = 707 := by
  have := disk_freeMap (hdr := sdHeader) (pos := 16 + 359 * 128) (ss := 128) (tail := List.replicate (360 * 128) 0) (h := sdH) rfl (by omega) (by omega) rfl rfl
  unfold freePool sdDisk blankImage
  rw [this]
  exact blankPool_length

theorem ddDisk_pool : (freePool ddH ddDisk).length = 707 := by
  have := disk_freeMap (hdr := ddHeader) (pos := 16 + 384 + 356 * 256) (ss := 256) (tail := List.replicate (360 * 256) 0) (h := ddH) rfl (by omega) (by omega) rfl rfl
  unfold freePool ddDisk blankImage
  rw [this]
  exact blankPool_length

end Atr
