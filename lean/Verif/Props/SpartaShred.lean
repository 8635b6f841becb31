import Verif.Lemmas.SpartaShred
import Verif.Lemmas.Opened
import Verif.Props.SpartaDir
import Verif.Props.Detect
/-!
# C79: `vtoc --clear-empty` on a SpartaDOS disk

The command is to fill the sectors that are free.  What it fills are the sectors 80 before the ones that are free.
-/
namespace Atr

/-- the sectors that are cleared: `s` if `s + 80` is free -/
def shiftedFree (h : AHeader) (b : Bytes) (s : Nat) : Prop := s < 720 ∧ SpartaFree h b (s + 80)

theorem free_bit {v : Bytes} (hv : 100 ≤ v.length) (s : Nat) :
    (unpackbits (slice v 0x0a 0x64) ++ List.replicate 560 false)[s]? = some true ↔ s < 720 ∧ (v.getD ((s + 80) / 8) 0).toNat / 2 ^ (7 - (s + 80) % 8) % 2 = 1 := by
  have hl : (unpackbits (slice v 0x0a 0x64)).length = 720 := by rw [length_unpackbits, length_slice]; omega
  by_cases hs : s < 720
  · rw [List.getElem?_append_left (by omega)]
    have h1 := getElem?_unpackbits (slice v 0x0a 0x64) (s / 8) (s % 8) (by omega)
    rw [show 8 * (s / 8) + s % 8 = s by omega] at h1
    rw [h1]
    have h2 : (slice v 0x0a 0x64)[s / 8]? = some (v.getD (10 + s / 8) 0) := by
      unfold slice
      rw [List.getElem?_drop, List.getElem?_take_of_lt (by omega), List.getD_eq_getElem?_getD, List.getElem?_eq_getElem (by omega)]
      rfl
    rw [h2, show (s + 80) / 8 = 10 + s / 8 by omega, show (s + 80) % 8 = s % 8 by omega]
    simp only [Option.map_some, Option.some.injEq]
    rw [testBit_status]
    simp [hs]
  · rw [List.getElem?_append_right (by omega), List.getElem?_replicate]
    constructor
    · split <;> intro h <;> cases h
    · omega

/-- the map that the Atari DOS class makes of the bitmap -/
theorem sparta_vtocMap {m : SImg} (g : m.hdr.Geom m.bytes.length) (hs : 33 ≤ m.hdr.sectorSize) (hm : m.hdr.maxSectors < 1280) (hb : BitmapOk m.hdr m.bytes) :
    ∃ map, m.vtocMap = .ok map ∧ map.length = 1280 ∧ ∀ s : Nat, map[s]? = some true ↔ shiftedFree m.hdr m.bytes s := by
  obtain ⟨c1, c2, c3, c4⟩ := hb
  obtain ⟨k, hp, hk, hl⟩ := getPos_first g (by
    rcases Nat.eq_zero_or_pos (bootByte m.hdr m.bytes 15) with h0 | h0
    · rw [h0] at c4; omega
    · omega)
  have hk33 : 33 ≤ k := by omega
  have hnum : ∃ j, bootByte m.hdr m.bytes 15 = j + 1 := by
    rcases Nat.eq_zero_or_pos (bootByte m.hdr m.bytes 15) with h0 | h0
    · rw [h0] at c4; omega
    · exact ⟨bootByte m.hdr m.bytes 15 - 1, by omega⟩
  obtain ⟨j, hj⟩ := hnum
  have hdp : m.hdr.dpos (bootWord m.hdr m.bytes 16) ≠ 0 := by
    unfold AHeader.dpos
    rcases g.inits with ⟨i1, i2⟩ | ⟨i1, i2, i3, -⟩
    · have := Nat.mul_le_mul_right m.hdr.sectorSize (show 1 ≤ bootWord m.hdr m.bytes 16 - 1 - m.hdr.numInitialSectors by omega)
      have := g.ssPos
      omega
    · rw [i1, i2]; omega
  have hcont := getContiguous_data g (k := j) c1 (by omega) hdp
  rw [← hj] at hcont
  have hsegs : spartaVtocSegs m.hdr m.bytes = .ok [⟨.bitmap, spartaBitmap m.hdr m.bytes⟩] := by
    unfold spartaVtocSegs
    rw [getSectors_one_eq, hp]
    simp only
    rw [getD_slice (b := m.bytes) (i := m.hdr.headerOffset) (j := m.hdr.headerOffset + k) (k := 16) (by omega),
      getD_slice (b := m.bytes) (i := m.hdr.headerOffset) (j := m.hdr.headerOffset + k) (k := 17) (by omega),
      getD_slice (b := m.bytes) (i := m.hdr.headerOffset) (j := m.hdr.headerOffset + k) (k := 15) (by omega)]
    have e1 : le16 (m.bytes.getD (m.hdr.headerOffset + 16) 0) (m.bytes.getD (m.hdr.headerOffset + 17) 0) = bootWord m.hdr m.bytes 16 := rfl
    have e2 : (m.bytes.getD (m.hdr.headerOffset + 15) 0).toNat = bootByte m.hdr m.bytes 15 := rfl
    rw [e1, e2, if_pos (by omega), hcont]
    simp only
    rw [slice_sectorBytes g _ _ c1 c3]
    rfl
  have hlen : (spartaBitmap m.hdr m.bytes).length = bootByte m.hdr m.bytes 15 * m.hdr.sectorSize := by
    unfold spartaBitmap
    rw [← slice_sectorBytes g _ _ c1 c3, length_slice]
    have hfit := getPos_fits g (AHeader.getPos_data g (s := bootWord m.hdr m.bytes 16 + j) (by omega) (by omega))
    have : m.hdr.dpos (bootWord m.hdr m.bytes 16 + j) = m.hdr.dpos (bootWord m.hdr m.bytes 16) + j * m.hdr.sectorSize := by
      unfold AHeader.dpos
      rw [show bootWord m.hdr m.bytes 16 + j - 1 - m.hdr.numInitialSectors = (bootWord m.hdr m.bytes 16 - 1 - m.hdr.numInitialSectors) + j by omega, Nat.add_mul]
      omega
    rw [hj, Nat.add_mul]
    omega
  refine ⟨unpackbits (slice (spartaBitmap m.hdr m.bytes) 0x0a 0x64) ++ List.replicate 560 false, ?_, ?_, ?_⟩
  · unfold SImg.vtocMap
    rw [hsegs]
    simp only [List.map_cons, List.headD_cons]
    rw [if_pos (by rw [length_unpackbits, length_slice]; omega)]
  · rw [List.length_append, length_unpackbits, length_slice, List.length_replicate]; omega
  · intro s
    exact free_bit (by omega) s

/-- **C79, the sectors that are filled.** If the bitmap is where it should be and the disk has less than 1280 sectors, exactly those sectors are
filled with zeros that are 80 sectors before one that is free.  Then the disk is read again. -/
theorem C79_shred {b : Bytes} {m : SImg} (hm : SImg.open b = .ok m) (hs : 33 ≤ m.hdr.sectorSize) (hmax : m.hdr.maxSectors < 1280)
    (hb : BitmapOk m.hdr b) : ∃ b', Clears m.hdr (shiftedFree m.hdr b) b b' ∧ SImg.shred 0 m =
      match SImg.reload { m with bytes := b' } with
      | .error e => (.error e, { m with bytes := b' })
      | .ok m' => (.ok (), m') := by
  obtain ⟨ho, rfl⟩ := open_sparta hm
  have g := openHeader_geom ho
  obtain ⟨map, h1, h2, h3⟩ := sparta_vtocMap g hs hmax hb
  obtain ⟨b', q1, q2, q3, q4⟩ := shredLoop_bytes g 0 map (List.range' m.hdr.startingSectorLabel m.hdr.maxSectors) { hdr := m.hdr, bytes := m.bytes } rfl rfl (by
    intro i hi
    rw [List.mem_range'_1, g.label] at hi
    omega)
  refine ⟨b', ⟨q2, ?_, ?_⟩, ?_⟩
  · intro s s1 s2 hF k hk
    rw [List.getD_eq_getElem?_getD, q3 k ⟨s, ?_, (h3 s).mpr hF, hk⟩]
    · rfl
    · rw [List.mem_range'_1, g.label]; omega
  · intro k hk
    rw [List.getD_eq_getElem?_getD, List.getD_eq_getElem?_getD, q4 k]
    rintro ⟨s, hs, hF, hin⟩
    rw [List.mem_range'_1, g.label] at hs
    exact hk s hs.1 (by omega) ((h3 s).mp hF) hin
  · unfold SImg.shred
    rw [h1]
    simp only
    rw [show UInt8.ofNat 0 = 0 from rfl, q1]
    rfl

/-- reading the disk again: the boot record and the root directory have to be there -/
theorem reload_iff {m : SImg} (g : m.hdr.Geom m.bytes.length) (hs : 33 ≤ m.hdr.sectorSize) (hm : 1 ≤ m.hdr.maxSectors) :
    ((SpartaLike m.hdr m.bytes ∧ ∃ L, SpartaListing m.hdr m.bytes (bootWord m.hdr m.bytes 9) L) → ∃ m', m.reload = .ok m' ∧ m'.bytes = m.bytes) ∧
    (¬ (SpartaLike m.hdr m.bytes ∧ ∃ L, SpartaListing m.hdr m.bytes (bootWord m.hdr m.bytes 9) L) → ∃ e, m.reload = .error e) ∧
    (¬ SpartaLike m.hdr m.bytes → m.reload = .error .invalidDiskImage) := by
  unfold SImg.reload
  rw [spartaBoot_eq g hs hm]
  refine ⟨?_, ?_, ?_⟩
  · rintro ⟨h1, L, h2⟩
    obtain ⟨ds, hd, -, -⟩ := (spartaDirectory_iff g _ _).mpr h2
    rw [if_pos h1]; simp only
    rw [hd]
    exact ⟨_, rfl, rfl⟩
  · intro hn
    by_cases h1 : SpartaLike m.hdr m.bytes
    · rw [if_pos h1]; simp only
      cases hd : spartaDirectory m.hdr m.bytes (bootWord m.hdr m.bytes 9) with
      | error e => exact ⟨e, rfl⟩
      | ok ds => exact absurd ⟨h1, _, (spartaDirectory_iff g _ _).mp ⟨ds, hd, spartaDirectory_nums hd, rfl⟩⟩ hn
    · rw [if_neg h1]
      exact ⟨_, rfl⟩
  · intro h1
    rw [if_neg h1]

theorem load_opened {L : Libs} {f : Bytes} {i : Image} (h : loadImage L f = .ok i) :
    ∃ c, guessContainer (knownContainers L.dec) f = .ok c ∧ Opened L (c.getD f) i := by
  unfold loadImage at h
  split at h
  · rename_i j mime hd
    cases h
    exact detect_opened hd
  · cases h
  · cases h

theorem load_sparta {L : Libs} {f : Bytes} {m : SImg} {segs} (h : loadImage L f = .ok (.sparta m segs)) : SImg.open m.bytes = .ok m := by
  obtain ⟨c, -, h1, -⟩ := load_opened h
  obtain ⟨-, h2⟩ := open_sparta h1
  rw [h2]
  exact h1

/-- the command on a file that is taken for a SpartaDOS disk -/
theorem run_shred_sparta {L : Libs} {t : Char} {f : Bytes} {m : SImg} {segs} {o : Opts} (h : loadImage L f = .ok (.sparta m segs)) (ho : o.dryRun = false) :
    Cmd.run (imageDriver L t) o .shred f = match SImg.shred 0 m with
      | (.error e, _) => (.error e, f)
      | (.ok _, m') => (.ok (), m'.bytes) := by
  unfold Cmd.run
  have hl : (imageDriver L t).load f = .ok (.sparta m segs) := h
  rw [hl]; simp only
  unfold Cmd.exec
  simp only
  rw [ho]
  have hsh : (imageDriver L t).shred (.sparta m segs) = match SImg.shred 0 m with
    | (r, m) => (r, .sparta m segs) := rfl
  rw [if_neg (by decide), hsh]
  cases SImg.shred 0 m with
  | mk r m' => cases r <;> rfl

/-- **C79, the file.** `vtoc --clear-empty` on a SpartaDOS disk replaces the file by the disk with the wrong sectors cleared, unless the boot record or
the root directory are lost in this way: then there is an exception and the file stays as it is. -/
theorem C79_file {L : Libs} {t : Char} {f : Bytes} {m : SImg} {segs} {o : Opts} (h : loadImage L f = .ok (.sparta m segs)) (ho : o.dryRun = false)
    (hs : 33 ≤ m.hdr.sectorSize) (hmax : m.hdr.maxSectors < 1280) (hb : BitmapOk m.hdr m.bytes) :
    ∃ b', Clears m.hdr (shiftedFree m.hdr m.bytes) m.bytes b' ∧
      ((SpartaLike m.hdr b' ∧ ∃ L, SpartaListing m.hdr b' (bootWord m.hdr b' 9) L) → Cmd.run (imageDriver L t) o .shred f = (.ok (), b')) ∧
      (¬ (SpartaLike m.hdr b' ∧ ∃ L, SpartaListing m.hdr b' (bootWord m.hdr b' 9) L) → ∃ e, Cmd.run (imageDriver L t) o .shred f = (.error e, f)) := by
  have hop := load_sparta h
  obtain ⟨hh, -⟩ := open_sparta hop
  have g := openHeader_geom hh
  obtain ⟨b', h1, h2⟩ := C79_shred hop hs hmax hb
  have h1m : 1 ≤ m.hdr.maxSectors := by
    obtain ⟨-, c2, c3, c4⟩ := hb
    rcases Nat.eq_zero_or_pos (bootByte m.hdr m.bytes 15) with h0 | h0
    · rw [h0] at c4; omega
    · omega
  have hr := reload_iff (m := { m with bytes := b' }) (by simp only; rw [h1.1]; exact g) hs h1m
  simp only at hr
  refine ⟨b', h1, ?_, ?_⟩
  · intro hc
    obtain ⟨m', e1, e2⟩ := hr.1 hc
    rw [run_shred_sparta h ho, h2, e1]
    simp only
    rw [e2]
  · intro hc
    obtain ⟨e, e1⟩ := hr.2.1 hc
    rw [run_shred_sparta h ho, h2, e1]
    exact ⟨e, rfl⟩

/-- **C79, sector 81 free.** If sector 81 is free, the boot record is cleared and the command fails; the file stays as it is. -/
theorem C79_boot_record {L : Libs} {t : Char} {f : Bytes} {m : SImg} {segs} {o : Opts} (h : loadImage L f = .ok (.sparta m segs)) (ho : o.dryRun = false)
    (hs : 33 ≤ m.hdr.sectorSize) (hmax : m.hdr.maxSectors < 1280) (hb : BitmapOk m.hdr m.bytes) (h81 : SpartaFree m.hdr m.bytes 81) :
    Cmd.run (imageDriver L t) o .shred f = (.error .invalidDiskImage, f) := by
  have hop := load_sparta h
  obtain ⟨hh, -⟩ := open_sparta hop
  have g := openHeader_geom hh
  obtain ⟨b', h1, h2⟩ := C79_shred hop hs hmax hb
  have h1m : 1 ≤ m.hdr.maxSectors := by
    obtain ⟨-, c2, c3, c4⟩ := hb
    rcases Nat.eq_zero_or_pos (bootByte m.hdr m.bytes 15) with h0 | h0
    · rw [h0] at c4; omega
    · omega
  have hr := (reload_iff (m := { m with bytes := b' }) (by simp only; rw [h1.1]; exact g) hs h1m).2.2
  simp only at hr
  rw [run_shred_sparta h ho, h2, hr]
  intro hl
  have hz : ∀ i, i < 33 → bootByte m.hdr b' i = 0 := by
    intro i hi
    obtain ⟨k, hp, hk, -⟩ := getPos_first g h1m
    unfold bootByte
    rw [h1.2.1 1 (by omega) h1m ⟨by omega, h81⟩ _ ⟨_, _, hp, by omega, by omega⟩]
    rfl
  have := hl.1
  unfold bootWord at this
  rw [hz 11 (by omega), hz (11 + 1) (by omega)] at this
  omega

/-- **C79, large disks.** With 1280 sectors or more the command fails. -/
theorem C79_large {L : Libs} {t : Char} {f : Bytes} {m : SImg} {segs} {o : Opts} (h : loadImage L f = .ok (.sparta m segs)) (ho : o.dryRun = false)
    (hmax : 1280 ≤ m.hdr.maxSectors) : ∃ e, Cmd.run (imageDriver L t) o .shred f = (.error e, f) := by
  have hop := load_sparta h
  obtain ⟨hh, -⟩ := open_sparta hop
  have g := openHeader_geom hh
  rw [run_shred_sparta h ho]
  have : ∃ e m', SImg.shred 0 m = (.error e, m') := by
    unfold SImg.shred
    cases hv : m.vtocMap with
    | error e =>
      simp only
      split
      · exact ⟨_, _, rfl⟩
      · exact ⟨_, _, rfl⟩
    | ok map =>
      have hlen : map.length = 1280 := by
        unfold SImg.vtocMap at hv
        split at hv
        · cases hv
        · simp only at hv
          split at hv
          · rename_i hl; cases hv; rw [List.length_append, hl, List.length_replicate]
          · cases hv
      obtain ⟨a, ha⟩ := shredLoop_beyond g (UInt8.ofNat 0) map (List.range' m.hdr.startingSectorLabel m.hdr.maxSectors) { hdr := m.hdr, bytes := m.bytes } rfl (by
        intro i hi
        rw [List.mem_range'_1, g.label] at hi
        omega) ⟨1280, by rw [List.mem_range'_1, g.label]; omega, by omega⟩
      simp only
      rw [ha]
      simp only
      split
      · exact ⟨_, _, rfl⟩
      · exact ⟨_, _, rfl⟩
  obtain ⟨e, m', he⟩ := this
  rw [he]
  exact ⟨e, rfl⟩

/-- sectors of a disk with 96 sectors: boot record, bitmap in sector 3 (only sector 86 is free), root directory in map sector 4 and sector 5, file `A`
in map sector 7 and sector 6.  What else is on the disk are bytes 0xe5. -/
def shredSec (s : Nat) : Bytes :=
  if s = 1 then sec128 ([0, 1, 0, 7, 0, 7, 0x4c, 0, 7, 4, 0, 96, 0, 1, 0, 1, 3, 0, 86, 0, 86, 0] ++ List.replicate 8 0x20 ++ [40, 0x80, 0x20])
  else if s = 3 then sec128 (List.replicate 10 0 ++ [2])
  else if s = 4 then sec128 [0, 0, 0, 0, 5, 0]
  else if s = 5 then sec128 (
    [0x28, 0, 0, 46, 0, 0] ++ List.replicate 11 0x4d ++ List.replicate 6 0 ++
    [0x08, 7, 0, 5, 0, 0, 0x41] ++ List.replicate 10 0x20 ++ List.replicate 6 0)
  else if s = 6 then sec128 [1, 2, 3, 4, 5]
  else if s = 7 then sec128 [0, 0, 0, 0, 6, 0]
  else List.replicate 128 0xe5

/-- that disk, with an ATR header -/
def shredDisk : Bytes := [0x96, 2, 0, 3, 0x80, 0, 0, 0, 0, 0, 0, 0, 0, 0, 0, 0] ++ (List.range' 1 96).flatMap shredSec

/-- its header -/
def shredHeader : AHeader := { headerOffset := 16, imageSize := 12288, payloadBytes := 125, maxSectors := 96 }

/-- opening the disk, making its segments, reading the file, filling the "free" sectors and reading the file again -/
def shredFacts : Bool :=
  match SImg.open shredDisk with
  | .error _ => false
  | .ok m =>
    (match m.segments with
      | .ok _ => true
      | .error _ => false) &&
    decide (m.findFile [0x41] = .ok [1, 2, 3, 4, 5]) &&
    (match SImg.shred 0 m with
      | (.ok _, m') =>
        (match SImg.open m'.bytes with
          | .ok m2 => decide (m2.findFile [0x41] = .ok [0, 0, 0, 0, 0])
          | .error _ => false) &&
        decide (sectorBytes shredHeader m'.bytes 86 = List.replicate 128 0xe5)
      | _ => false)

theorem shredFacts_true : shredFacts = true := by decide +kernel

/-- **C79, refuted.** That the command leaves the sectors alone that are in use is not true, nor that it clears those that are free: on this disk, with all its
parts where they should be, it fills sector 6, which is in use and holds the file `A`, and leaves the only free sector as it is.  The file on the host is
replaced, and `A` now reads as zeros. -/
theorem C79_wrong_sectors {L : Libs} (hL : L.Plain shredDisk) (t : Char) : ∃ m segs b' m',
    loadImage L shredDisk = .ok (.sparta m segs) ∧ BitmapOk m.hdr m.bytes ∧ (∀ s, SpartaFree m.hdr m.bytes s ↔ s = 86) ∧
    m.findFile [0x41] = .ok [1, 2, 3, 4, 5] ∧
    Cmd.run (imageDriver L t) {} .shred shredDisk = (.ok (), b') ∧ SImg.open b' = .ok m' ∧
    m'.findFile [0x41] = .ok [0, 0, 0, 0, 0] ∧ sectorBytes m.hdr b' 86 = List.replicate 128 0xe5 := by
  have hf := shredFacts_true
  have ho : openHeader shredDisk = .ok shredHeader := by decide +kernel
  unfold shredFacts at hf
  split at hf
  · cases hf
  rename_i m hm
  obtain ⟨e1, e2⟩ := open_sparta hm
  rw [ho] at e1
  injection e1 with e1
  simp only [Bool.and_eq_true, decide_eq_true_iff] at hf
  obtain ⟨⟨h1, h2⟩, h3⟩ := hf
  split at h1
  case h_2 => cases h1
  rename_i segs hseg
  split at h3
  case h_2 => cases h3
  rename_i m' hsh
  simp only [Bool.and_eq_true, decide_eq_true_iff] at h3
  obtain ⟨h4, h6⟩ := h3
  split at h4
  case h_2 => cases h4
  rename_i m2 hm2
  simp only [decide_eq_true_iff] at h4
  have hd : PlainDisk L shredHeader shredDisk :=
    { plain := hL, opens := ho, usual := Or.inl rfl, sectorSize := by decide, sectors := by decide, size := by decide +kernel }
  obtain ⟨mime, -, hdet⟩ := C68_sparta hd (by unfold KbootLike kbootLength; decide +kernel) hm hseg
  have hload : loadImage L shredDisk = .ok (.sparta m segs) := by
    unfold loadImage
    rw [hdet]
  have hbm : spartaBitmap shredHeader shredDisk = List.replicate 10 0 ++ 2 :: List.replicate 117 0 := by decide +kernel
  refine ⟨m, segs, m'.bytes, m2, hload, ?_, ?_, h2, ?_, hm2, h4, ?_⟩
  · rw [← e1, e2]
    unfold BitmapOk
    decide +kernel
  · intro s
    rw [← e1, e2]
    unfold SpartaFree
    rw [hbm]
    by_cases h128 : s < 1024
    · revert s
      decide +kernel
    · rw [List.getD_eq_getElem?_getD, List.getElem?_eq_none (by simp; omega)]
      have : (0 : UInt8).toNat / 2 ^ (7 - s % 8) % 2 = 0 := by
        rw [show (0 : UInt8).toNat = 0 from rfl, Nat.zero_div]
      rw [Option.getD_none]
      omega
  · rw [run_shred_sparta hload rfl, hsh]
  · rw [← e1]; exact h6

/-- of the sectors of this disk only sector 6 is taken for a free one -/
example : (∀ s, shiftedFree shredHeader shredDisk s ↔ s = 6) := by
  intro s
  have hbm : spartaBitmap shredHeader shredDisk = List.replicate 10 0 ++ 2 :: List.replicate 117 0 := by decide +kernel
  unfold shiftedFree SpartaFree
  rw [hbm]
  constructor
  · rintro ⟨h1, h2⟩
    revert s
    decide +kernel
  · rintro rfl
    decide +kernel

end Atr
