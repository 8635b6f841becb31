import Verif.Lemmas.AtariMounted
/-!
# C39: Atari DOS directory entry codec
-/
namespace Atr

/-- A name field in canonical form: fits in `n` bytes, no NUL, does not end in a blank (space or 9-13). -/
def NameField (n : Nat) (x : Bytes) : Prop :=
  x.length ≤ n ∧ (0 : UInt8) ∉ x ∧ ∀ c, x.getLast? = some c → c ≠ 32 ∧ (c < 9 ∨ 13 < c)

theorem NameField.reread {n : Nat} {x : Bytes} (h : NameField n x) : rstripWs (rstripNul (encS n x)) = x := by
  refine field_reread h.1 h.2.1 (rstripWs_eq x ?_)
  intro c hc
  have := h.2.2 c hc
  unfold isWs
  rw [Bool.or_eq_false_iff, Bool.and_eq_false_iff]
  refine ⟨by simpa using this.1, ?_⟩
  rcases this.2 with h | h
  · left; simpa using h
  · right; simpa using h

/-- **C39, layout.** Byte 0 holds the flags (bits 0, 1, 2, 4, 5, 6, 7), bytes 1-2 the sector count, bytes 3-4 the first
sector (both low byte first), bytes 5-12 the name and 13-15 the extension, padded with NULs. -/
theorem C39_layout (d : ADirent) (hn : d.numSectors < 65536) (hs : 0 ≤ d.startingSector ∧ d.startingSector < 65536)
    (hb : d.basename.length ≤ 8) (he : d.ext.length ≤ 3) :
    d.encode.length = 16 ∧
    (∀ b, d.encode[0]? = some b → b.toNat.testBit 0 = d.openedOutput ∧ b.toNat.testBit 1 = d.dos2 ∧ b.toNat.testBit 2 = d.mydos ∧
      b.toNat.testBit 3 = false ∧ b.toNat.testBit 4 = d.isDir ∧ b.toNat.testBit 5 = d.locked ∧ b.toNat.testBit 6 = d.inUse ∧
      b.toNat.testBit 7 = d.deleted) ∧
    (∀ x y, d.encode[1]? = some x → d.encode[2]? = some y → x.toNat + 256 * y.toNat = d.numSectors) ∧
    (∀ x y, d.encode[3]? = some x → d.encode[4]? = some y → ((x.toNat + 256 * y.toNat : Nat) : Int) = d.startingSector) ∧
    slice d.encode 5 13 = d.basename ++ List.replicate (8 - d.basename.length) 0 ∧
    slice d.encode 13 16 = d.ext ++ List.replicate (3 - d.ext.length) 0 := by
  obtain ⟨a0, a1, a2, a3, a4, a5, a6, a7, ha⟩ := exists8 (length_encS 8 d.basename)
  obtain ⟨e0, e1, e2, hex⟩ := exists3 (length_encS 3 d.ext)
  have hf : (UInt8.ofNat d.encodeFlag).toNat = d.encodeFlag := by
    rw [toNat_ofNat, Nat.mod_eq_of_lt (encodeFlag_lt d)]
  have hn' := le16_enc d.numSectors
  have hs' := le16_enc (d.startingSector % 65536).toNat
  unfold le16 at hn' hs'
  have hba : d.basename ++ List.replicate (8 - d.basename.length) 0 = encS 8 d.basename := by
    rw [encS, List.take_of_length_le hb]
  have hea : d.ext ++ List.replicate (3 - d.ext.length) 0 = encS 3 d.ext := by
    rw [encS, List.take_of_length_le he]
  rw [hba, hea]
  refine ⟨length_encode d, ?_, ?_, ?_, ?_, ?_⟩
  · intro b hb
    have : b = UInt8.ofNat d.encodeFlag := by
      rw [ADirent.encode] at hb; simpa using hb.symm
    rw [this, hf]
    exact encodeFlag_bits d
  · intro x y hx hy
    simp [ADirent.encode, enc16] at hx hy
    subst hx; subst hy
    omega
  · intro x y hx hy
    simp [ADirent.encode, enc16] at hx hy
    subst hx; subst hy
    omega
  · simp [ADirent.encode, enc16, ha, hex, slice]
  · simp [ADirent.encode, enc16, ha, hex, slice]

/-- **C39, round trip.** An entry with canonical name fields and in-range numbers is read back with the same flags,
sector count, start sector and name. -/
theorem C39_roundtrip (h : AHeader) (i : Nat) (d : ADirent) (hn : d.numSectors < 65536)
    (hs : 0 ≤ d.startingSector ∧ d.startingSector < 65536) (hb : NameField 8 d.basename) (he : NameField 3 d.ext) :
    ∃ d', ADirent.parse h i d.encode = .ok d' ∧ d'.openedOutput = d.openedOutput ∧ d'.dos2 = d.dos2 ∧ d'.mydos = d.mydos ∧
      d'.isDir = d.isDir ∧ d'.locked = d.locked ∧ d'.inUse = d.inUse ∧ d'.deleted = d.deleted ∧
      d'.numSectors = d.numSectors ∧ d'.startingSector = d.startingSector ∧ d'.basename = d.basename ∧ d'.ext = d.ext ∧
      d'.filename = d.filename ∧ d'.encode = d.encode := by
  refine ⟨_, parse_encode h i d, rfl, rfl, rfl, rfl, rfl, rfl, rfl, Nat.mod_eq_of_lt hn, ?_, hb.reread, he.reread, ?_, ?_⟩
  · show d.startingSector % 65536 = d.startingSector
    omega
  · unfold ADirent.filename ADirent.reread
    simp only [hb.reread, he.reread]
  · unfold ADirent.reread ADirent.encode ADirent.encodeFlag
    simp only [hb.reread, he.reread, Nat.mod_eq_of_lt hn]
    rw [show d.startingSector % 65536 % 65536 = d.startingSector % 65536 by omega]

/-- `A.TXT`, 3 sectors from 4, locked -/
def direntT : ADirent :=
  { dos2 := true, inUse := true, locked := true, numSectors := 3, startingSector := 4, basename := [0x41], ext := [0x54, 0x58, 0x54] }

example : direntT.encode = [0x62, 3, 0, 4, 0, 0x41, 0, 0, 0, 0, 0, 0, 0, 0x54, 0x58, 0x54] ∧
    ∃ d', ADirent.parse sdH 0 direntT.encode = .ok d' ∧ d'.filename = [0x41, 0x2e, 0x54, 0x58, 0x54] := by
  refine ⟨by decide, ?_⟩
  obtain ⟨d', h1, _, _, _, _, _, _, _, _, _, _, _, h12, _⟩ := C39_roundtrip sdH 0 direntT (by decide) (by decide)
    (by unfold NameField; decide) (by unfold NameField; decide)
  exact ⟨d', h1, h12⟩

/-- **C39, new entries.** An entry made by `set_values` (with the sector fields set by `write_file`) is read back with the
8.3 form of the name, as a live, unlocked DOS 2 file. -/
theorem C39_set_values (h : AHeader) (i idx count first : Nat) (name : Bytes) (h0 : (0 : UInt8) ∉ name)
    (hn : count < 65536) (hf : first < 65536) :
    ∃ d', ADirent.parse h i (rawEntry name idx count first).encode = .ok d' ∧ d'.filename = norm83 name ∧
      d'.numSectors = count ∧ d'.startingSector = first ∧ d'.inUse = true ∧ d'.dos2 = true ∧ d'.deleted = false ∧
      d'.locked = false ∧ d'.mydos = false ∧ d'.isDir = false ∧ d'.openedOutput = false ∧ d'.flag = 0x42 := by
  obtain ⟨f1, f2⟩ := setValues_fields name idx h0
  have hfl : UInt8.ofNat (rawEntry name idx count first).encodeFlag = 0x42 := by
    unfold rawEntry
    rw [setValues_eq]
    simp [ADirent.encodeFlag]
  refine ⟨_, parse_encode h i _, ?_, Nat.mod_eq_of_lt hn, ?_, ?_, ?_, ?_, ?_, ?_, ?_, ?_, hfl⟩
  · unfold ADirent.filename ADirent.reread rawEntry
    simp only [f1, f2]
    rfl
  · show (first : Int) % 65536 = first
    omega
  all_goals (unfold rawEntry ADirent.reread; rw [setValues_eq])

example : ∃ d', ADirent.parse sdH 5 (rawEntry [0x61, 0x62, 0x63, 0x64, 0x65, 0x66, 0x67, 0x68, 0x69, 0x2e, 0x78] 5 2 9).encode = .ok d' ∧
    d'.filename = [0x61, 0x62, 0x63, 0x64, 0x65, 0x66, 0x67, 0x68, 0x2e, 0x78] := by
  obtain ⟨d', h1, h2, _⟩ := C39_set_values sdH 5 5 2 9 [0x61, 0x62, 0x63, 0x64, 0x65, 0x66, 0x67, 0x68, 0x69, 0x2e, 0x78]
    (by decide) (by decide) (by decide)
  exact ⟨d', h1, by rw [h2]; decide⟩

/-- The other direction is not exact: no entry encodes to bytes with flag bit 3 set, so
re-encoding what was read loses that bit … -/
theorem C39_flag_bit_lost (b : Bytes) (f : UInt8) (d : ADirent) (hb : b.head? = some f)
    (hf : f.toNat.testBit 3 = true) : d.encode ≠ b := by
  intro he
  have h1 : d.encode.head? = some (UInt8.ofNat d.encodeFlag) := rfl
  rw [he, hb] at h1
  injection h1 with h1
  have h2 := (encodeFlag_bits d).2.2.2.1
  rw [h1, toNat_ofNat, Nat.mod_eq_of_lt (encodeFlag_lt d), h2] at hf
  cases hf

/-- … and replaces the blanks that Atari DOS pads names with by NULs. -/
theorem C39_padding_lost (h : AHeader) (i : Nat) (b : Bytes) (d : ADirent) (hb : b[12]? = some 32)
    (hd : ADirent.parse h i b = .ok d) : d.encode ≠ b := by
  have hl := (parse_ok hd).1
  obtain ⟨a0, a1, a2, a3, a4, n0, n1, n2, n3, n4, n5, n6, n7, e0, e1, e2, rfl⟩ := exists16 hl
  intro he
  have h7 : n7 = 32 := by simpa using hb
  have hbase : d.basename = rstripWs (rstripNul [n0, n1, n2, n3, n4, n5, n6, n7]) := by
    unfold ADirent.parse at hd
    injection hd with hd
    rw [← hd]
  have h12 : d.encode[12]? = some 32 := by rw [he]; exact hb
  have hnul : rstripNul [n0, n1, n2, n3, n4, n5, n6, 32] = [n0, n1, n2, n3, n4, n5, n6, 32] := by
    apply rstripNul_eq; intro c hc; simp at hc; subst hc; rfl
  have hlt : d.basename.length ≤ 7 := by
    rw [hbase, h7, hnul]
    have : rstripWs [n0, n1, n2, n3, n4, n5, n6, 32] = rstripWs [n0, n1, n2, n3, n4, n5, n6] := by
      simp [rstripWs, isWs]
    rw [this]
    exact length_rstripWs _
  have : d.encode[12]? = (encS 8 d.basename)[7]? := by
    obtain ⟨a0, a1, a2, a3, a4, a5, a6, a7, ha⟩ := exists8 (length_encS 8 d.basename)
    simp [ADirent.encode, enc16, ha]
  rw [this, encS, List.take_of_length_le (by omega), List.getElem?_append_right hlt, List.getElem?_replicate] at h12
  split at h12
  · cases h12
  · cases h12

example : ∃ d, ADirent.parse sdH 0 [0x42, 1, 0, 4, 0, 0x41, 32, 32, 32, 32, 32, 32, 32, 0x54, 0x58, 0x54] = .ok d ∧
    d.filename = [0x41, 0x2e, 0x54, 0x58, 0x54] ∧
    d.encode ≠ [0x42, 1, 0, 4, 0, 0x41, 32, 32, 32, 32, 32, 32, 32, 0x54, 0x58, 0x54] :=
  ⟨_, rfl, by decide, C39_padding_lost sdH 0 _ _ rfl rfl⟩

end Atr
