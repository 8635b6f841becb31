import Verif.Props.Detect
import Verif.Lemmas.DetectBoot
/-!
# Atari DOS volumes are found, unless their boot sector looks like another format
-/
namespace Atr

theorem mounted_size {m : AImg} {ds} (hm : Mounted m ds) : bootEnd m.hdr + 44720 ≤ m.bytes.length := by
  obtain ⟨c, e⟩ := mounted_iff.mp hm
  have g := c.geom
  have hs := c.sectorSize
  have hx := c.size
  have d := dataSec_big g (s := 368) (by omega) hx
  have h1 := AHeader.dpos_fit g d.1 d.2
  have h2 := g.fit
  unfold bootEnd
  unfold AHeader.dpos at h1
  rcases g.inits with ⟨i1, i2⟩ | ⟨i1, i2, i3, i4⟩
  · rw [i1] at h1 ⊢
    rw [if_neg (by omega)]
    rcases hs with hs | hs <;> rw [hs] at h1 ⊢ <;> omega
  · rw [i1] at h1 ⊢
    rw [if_pos rfl]
    rw [i3] at h1
    omega

theorem bootEnd_big {h : AHeader} (hs : 128 ≤ h.sectorSize) : h.headerOffset + 384 ≤ bootEnd h := by
  unfold bootEnd
  split <;> omega

theorem plainDisk_mounted {L : Libs} {m : AImg} {ds} (hm : Mounted m ds) (hp : L.Plain m.bytes) (hu : UsualDisk m.hdr m.bytes) :
    PlainDisk L m.hdr m.bytes := by
  have hs := hm.2.sectorSize
  have hx := hm.2.size
  have := mounted_size hm
  exact ⟨hp, hm.2.opens, hu, by omega, by omega, by omega⟩

/-- **C68, consistent volumes.** A consistent Atari DOS volume that is no container and not in the signature database is taken
for an Atari DOS disk, with all its segments, unless its boot sector looks like one of KBoot or SpartaDOS. -/
theorem C68_mounted {L : Libs} {m : AImg} {ds} (hm : Mounted m ds) (hp : L.Plain m.bytes) (hu : UsualDisk m.hdr m.bytes)
    (hk : ¬ KbootLike m.hdr m.bytes) (hs : ¬ SpartaLike m.hdr m.bytes) : ∃ t segs, m.segments = .ok segs ∧
    detect L m.bytes = .ok (.atari m segs, t) := by
  obtain ⟨fs, hseg, _⟩ := segments_mounted hm
  obtain ⟨t, _, h⟩ := C68_atari (plainDisk_mounted hm hp hu) hk hs hm.1 hseg
  exact ⟨t, _, hseg, h⟩

theorem getD_set_splice {a v : Bytes} {i k : Nat} (h : i + v.length ≤ a.length) (hk : k < v.length) : (splice a i v).getD (i + k) 0 = v.getD k 0 := by
  unfold splice
  have h1 : (a.take i).length = i := by rw [List.length_take]; omega
  rw [List.getD_eq_getElem?_getD, List.getD_eq_getElem?_getD, List.append_assoc, List.getElem?_append_right (by omega), h1,
    show i + k - i = k by omega, List.getElem?_append_left hk]

/-- the image with bytes 9-11 of the boot sector set to the little-endian number `n` -/
def withLength (h : AHeader) (b : Bytes) (n : Nat) : Bytes :=
  splice b (h.headerOffset + 9) [UInt8.ofNat n, UInt8.ofNat (n / 256), UInt8.ofNat (n / 65536)]

/-- **C68, a flaw.** On every consistent Atari DOS volume of less than 16 MB there are three boot bytes, used by nothing on an
Atari DOS disk, such that changing them leaves a consistent volume with the same files, but the program takes it for a
KBoot disk and shows one executable, namely the whole disk from sector 4 on. -/
theorem C68_kboot_hides {L : Libs} {m : AImg} {ds} (hm : Mounted m ds) (hu : UsualDisk m.hdr m.bytes)
    (hz : m.bytes.length - bootEnd m.hdr < 2 ^ 24)
    (hp : L.Plain (withLength m.hdr m.bytes (m.bytes.length - bootEnd m.hdr))) :
    ∃ m' segs t, Mounted m' ds ∧ m'.bytes = withLength m.hdr m.bytes (m.bytes.length - bootEnd m.hdr) ∧ m'.listing = m.listing ∧
      detect L m'.bytes = .ok (.kboot { hdr := m.hdr, bytes := m'.bytes, exe := m.bytes.drop (bootEnd m.hdr) } segs, t) := by
  have hs := hm.2.sectorSize
  have hsz := mounted_size hm
  have hbe := bootEnd_big (h := m.hdr) (by omega)
  generalize hn : m.bytes.length - bootEnd m.hdr = n at hz hp ⊢
  have hroom : m.hdr.headerOffset + 9 + 3 ≤ m.bytes.length := by omega
  have hlen : (withLength m.hdr m.bytes n).length = m.bytes.length := length_splice _ _ _ hroom
  have hdrop : (withLength m.hdr m.bytes n).drop (bootEnd m.hdr) = m.bytes.drop (bootEnd m.hdr) := by
    unfold withLength splice
    rw [List.drop_append, List.drop_drop]
    have : ((m.bytes.take (m.hdr.headerOffset + 9)) ++ [UInt8.ofNat n, UInt8.ofNat (n / 256), UInt8.ofNat (n / 65536)]).length = m.hdr.headerOffset + 12 := by
      rw [List.length_append, List.length_take, Nat.min_eq_left (by omega)]
      rfl
    rw [List.drop_eq_nil_of_le (by omega), List.nil_append, this]
    congr 1
    show m.hdr.headerOffset + 9 + 3 + (bootEnd m.hdr - (m.hdr.headerOffset + 12)) = _
    omega
  obtain ⟨m', h1, h2, h3, h4⟩ := mounted_boot hm hlen (by
    exact take_splice (by omega) (by omega)) hdrop
  have hbyte : ∀ k, k < 3 → bootByte m.hdr m'.bytes (9 + k) = ([UInt8.ofNat n, UInt8.ofNat (n / 256), UInt8.ofNat (n / 65536)].getD k 0).toNat := by
    intro k hk
    unfold bootByte
    rw [h3, ← Nat.add_assoc]
    exact congrArg _ (getD_set_splice hroom hk)
  have hkl : kbootLength m.hdr m'.bytes = n := by
    unfold kbootLength bootWord
    have e0 := hbyte 0 (by omega)
    have e1 := hbyte 1 (by omega)
    have e2 := hbyte 2 (by omega)
    simp only [Nat.reduceAdd] at e0 e1 e2
    rw [e0, e1, e2]
    show (UInt8.ofNat n).toNat + 256 * (UInt8.ofNat (n / 256)).toNat + 65536 * (UInt8.ofNat (n / 65536)).toNat = n
    rw [UInt8.toNat_ofNat', UInt8.toNat_ofNat', UInt8.toNat_ofNat']
    omega
  have hlen' : m'.bytes.length = m.bytes.length := by rw [h3]; exact hlen
  have hk : KbootLike m'.hdr m'.bytes := by
    rw [h2]
    unfold KbootLike
    rw [hkl, hlen']
    omega
  obtain ⟨t, segs, _, hd⟩ := C68_kboot (plainDisk_mounted (L := L) h1 (by rw [h3]; exact hp) (by
    unfold UsualDisk
    rw [h2, hlen']
    exact hu)) hk
  refine ⟨m', segs, t, h1, h3, h4, ?_⟩
  rw [hd, h2, hkl]
  have : slice m'.bytes (bootEnd m.hdr) (bootEnd m.hdr + n) = m.bytes.drop (bootEnd m.hdr) := by
    unfold slice
    rw [List.take_of_length_le (by omega), h3, hdrop]
  rw [this]

/-! ### an example -/

/-- decompressors that look at the magic number of gzip, bzip2 and xz, an empty database and no zip support -/
def magicLibs : Libs where
  dec := {
    gzip := fun b => if b.take 2 = [0x1f, 0x8b] then .ok [] else .error .os
    bzip := fun b => if b.take 3 = [0x42, 0x5a, 0x68] then .ok [] else .error .os
    lzma := fun b => if b.take 6 = [0xfd, 0x37, 0x7a, 0x58, 0x5a, 0] then .ok [] else .error .lzma }
  sig := fun _ => none
  zip := fun _ => .ok none

theorem magic_plain {b : Bytes} (h : b.take 6 = [0x96, 0x02, 0x80, 0x16, 0x80, 0]) : magicLibs.Plain b := by
  obtain ⟨t, rfl⟩ : ∃ t, b = [0x96, 0x02, 0x80, 0x16, 0x80, 0] ++ t := ⟨b.drop 6, by rw [← h, List.take_append_drop]⟩
  refine ⟨Or.inl ?_, Or.inl ?_, Or.inl ?_, ?_, rfl⟩
  · simp [magicLibs]
  · simp [magicLibs]
  · simp [magicLibs]
  · rintro ⟨x, y, r, h, hx, _⟩
    injection h with h _
    rw [← h] at hx
    revert hx
    decide

theorem sdDisk_size : sdDisk.length = 92176 := by
  unfold sdDisk blankImage
  rw [diskImage_length rfl (by omega) (by omega), List.length_replicate]

theorem sdDisk_front : sdDisk.take 400 = sdHeader ++ List.replicate 384 0 := by
  unfold sdDisk blankImage diskImage
  rw [List.take_append_of_le_length (by rw [List.length_append, List.length_replicate]; show 400 ≤ 16 + _; omega), List.take_append,
    show sdHeader.length = 16 from rfl, List.take_of_length_le (by show 16 ≤ 400; omega), List.take_replicate, Nat.min_eq_left (by omega)]

theorem sdDisk_boot {b : Bytes} (h : b.take 400 = sdDisk.take 400) {i : Nat} (hi : i < 384) : bootByte sdH b i = 0 := by
  have : b.getD (16 + i) 0 = (b.take 400).getD (16 + i) 0 := by
    rw [List.getD_eq_getElem?_getD, List.getD_eq_getElem?_getD, List.getElem?_take_of_lt (by omega)]
  unfold bootByte
  rw [show sdH.headerOffset = 16 from rfl, this, h, sdDisk_front, List.getD_eq_getElem?_getD, List.getElem?_append_right (by show 16 ≤ 16 + i; omega),
    show 16 + i - sdHeader.length = i from (by show 16 + i - 16 = i; omega), List.getElem?_replicate]
  split <;> rfl

theorem bootWord_zero {b : Bytes} (h : b.take 400 = sdDisk.take 400) {i : Nat} (hi : i < 383) : bootWord sdH b i = 0 := by
  unfold bootWord
  rw [sdDisk_boot h (by omega), sdDisk_boot h (by omega)]

theorem sdDisk_not {b : Bytes} (hl : b.length = sdDisk.length) (h : b.take 400 = sdDisk.take 400) : ¬ KbootLike sdH b ∧ ¬ SpartaLike sdH b ∧ magicLibs.Plain b := by
  have e := sdDisk_size
  refine ⟨?_, ?_, ?_⟩
  · unfold KbootLike kbootLength
    rw [bootWord_zero h (by omega), sdDisk_boot h (by omega), hl, e]
    exact fun hc => by have := hc.2; revert this; decide
  · unfold SpartaLike
    rw [bootWord_zero h (i := 11) (by omega)]
    exact fun hc => by have := hc.1; revert this; decide
  · refine magic_plain ?_
    have : b.take 6 = (b.take 400).take 6 := by rw [List.take_take, Nat.min_eq_left (by omega)]
    rw [this, h, sdDisk_front]
    rfl

/-- the blank disk of the package is found -/
example : ∃ t segs, detect magicLibs sdDisk = .ok (.atari (mountRec sdH sdDisk []) segs, t) := by
  obtain ⟨h1, h2, h3⟩ := sdDisk_not rfl rfl
  obtain ⟨t, segs, _, h⟩ := C68_mounted mounted_sd h3 (Or.inl rfl) h1 h2
  exact ⟨t, segs, h⟩

/-- with the bytes 0x80, 0x66, 0x01 at 9-11 of the boot sector it is taken for a KBoot disk -/
example : ∃ m' segs t, Mounted m' [] ∧ m'.bytes = withLength sdH sdDisk 91776 ∧
    detect magicLibs m'.bytes = .ok (.kboot { hdr := sdH, bytes := m'.bytes, exe := sdDisk.drop 400 } segs, t) := by
  have e : (mountRec sdH sdDisk []).bytes.length - bootEnd (mountRec sdH sdDisk []).hdr = 91776 := by
    have e1 : (mountRec sdH sdDisk []).bytes = sdDisk := rfl
    have e2 : bootEnd (mountRec sdH sdDisk []).hdr = 400 := rfl
    rw [e1, e2, sdDisk_size]
  obtain ⟨m', segs, t, h1, h2, _, h3⟩ := C68_kboot_hides (L := magicLibs) mounted_sd (Or.inl rfl) (by rw [e]; decide) (by
    rw [e]
    refine magic_plain ?_
    have e1 : (mountRec sdH sdDisk []).bytes = sdDisk := rfl
    have e2 : (mountRec sdH sdDisk []).hdr.headerOffset = 16 := rfl
    unfold withLength
    rw [e1, e2]
    have hl := sdDisk_size
    rw [take_splice (by omega) (by omega), show sdDisk.take 6 = (sdDisk.take 400).take 6 by rw [List.take_take, Nat.min_eq_left (by omega)],
      sdDisk_front]
    rfl)
  rw [e] at h2
  exact ⟨m', segs, t, h1, h2, h3⟩

end Atr
