import Verif.Lemmas.Header
/-!
# C15 (sector geometry), C16 (ATR header round trip), C45 (opening arbitrary bytes)
-/
namespace Atr

/-- C15, part: every valid sector lies inside the image, after the header. -/
theorem C15_sector_in_bounds {b : Bytes} {h : AHeader} (ho : openHeader b = .ok h) {s p n : Nat}
    (hp : h.getPos s = .ok (p, n)) : h.headerOffset ≤ p ∧ p + n ≤ b.length := by
  have g := openHeader_geom ho
  obtain ⟨h1, h2, h3 | h3⟩ := AHeader.getPos_ok g hp
  · have := AHeader.dpos_fit g h3.1 h2
    have := g.fit
    rw [h3.2.1, h3.2.2]
    unfold AHeader.dpos at *; omega
  · rcases g.inits with gi | gi
    · omega
    · have := g.fit
      rw [h3.2.2.2, h3.2.2.1]; omega

/-- C15, part: distinct sectors are disjoint, provided they are not both among the three initial (boot) sectors of
a 183936-byte double density image.  The missing case is false: `C15_refuted_boot_sectors`. -/
theorem C15_sectors_disjoint_partial {b : Bytes} {h : AHeader} (ho : openHeader b = .ok h) {s t p n q k : Nat}
    (hs : h.getPos s = .ok (p, n)) (ht : h.getPos t = .ok (q, k)) (hne : s ≠ t)
    (hb : h.imageSize ≠ 183936 ∨ 3 < s ∨ 3 < t) : p + n ≤ q ∨ q + k ≤ p := by
  have g := openHeader_geom ho
  obtain ⟨s1, s2, s3⟩ := AHeader.getPos_ok g hs
  obtain ⟨t1, t2, t3⟩ := AHeader.getPos_ok g ht
  rcases s3 with s3 | s3 <;> rcases t3 with t3 | t3
  · have := AHeader.dpos_disjoint s3.1 t3.1 hne
    rw [s3.2.1, s3.2.2, t3.2.1, t3.2.2]; exact this
  · right
    rcases g.inits with gi | gi
    · omega
    · rw [s3.2.1, t3.2.2.2, t3.2.2.1]; unfold AHeader.dpos; rw [gi.1, gi.2.1]; omega
  · left
    rcases g.inits with gi | gi
    · omega
    · rw [t3.2.1, s3.2.2.2, s3.2.2.1]; unfold AHeader.dpos; rw [gi.1, gi.2.1]; omega
  · rcases g.inits with gi | gi
    · omega
    · omega

/-- C15, part: on an image without short initial sectors the sectors cover the data area, gap-free: every byte of
the first `maxSectors * sectorSize` data bytes lies in a sector. -/
theorem C15_sectors_cover_partial {b : Bytes} {h : AHeader} (ho : openHeader b = .ok h) (h183 : h.imageSize ≠ 183936)
    {i : Nat} (h1 : h.headerOffset ≤ i) (h2 : i < h.headerOffset + h.maxSectors * h.sectorSize) :
    ∃ s p n, h.getPos s = .ok (p, n) ∧ p ≤ i ∧ i < p + n := by
  have g := openHeader_geom ho
  have gi : h.numInitialSectors = 0 ∧ h.initialSectorSize = 0 := by
    rcases g.inits with gi | gi
    · exact gi
    · exact absurd gi.2.2.2 h183
  have hss := g.ssPos
  have hq : (i - h.headerOffset) / h.sectorSize < h.maxSectors := by
    rw [Nat.div_lt_iff_lt_mul hss]; omega
  have q1 := Nat.div_mul_le_self (i - h.headerOffset) h.sectorSize
  have q2 := Nat.lt_div_mul_add hss (a := i - h.headerOffset)
  generalize (i - h.headerOffset) / h.sectorSize = q at hq q1 q2
  refine ⟨q + 1, _, _, AHeader.getPos_data g (by omega) (by omega), ?_, ?_⟩
  · unfold AHeader.dpos; rw [gi.1]; simp; omega
  · unfold AHeader.dpos; rw [gi.1]; simp; omega

/-- The number of sectors is the number of whole sectors in the image: at most `sectorSize - 1` trailing bytes are
not addressable. -/
theorem C15_sector_count {b : Bytes} {h : AHeader} (ho : openHeader b = .ok h) (h183 : h.imageSize ≠ 183936) :
    h.maxSectors * h.sectorSize ≤ h.imageSize ∧ h.imageSize < (h.maxSectors + 1) * h.sectorSize := by
  have g := openHeader_geom ho
  have gi : h.numInitialSectors = 0 ∧ h.initialSectorSize = 0 := by
    rcases g.inits with gi | gi
    · exact gi
    · exact absurd gi.2.2.2 h183
  have hm := g.max
  rw [gi.1, gi.2] at hm
  simp at hm
  rw [hm]
  exact ⟨Nat.div_mul_le_self _ _, by
    have := Nat.lt_div_mul_add g.ssPos (a := h.imageSize); rw [Nat.add_mul, Nat.one_mul]; exact this⟩

/-- C15 is false for the boot sectors of 183936-byte images: *every* such image places sector 2 three bytes after
sector 1 although both are 128 bytes long. -/
theorem C15_refuted_boot_sectors {b : Bytes} {h : AHeader} (ho : openHeader b = .ok h)
    (h183 : h.imageSize = 183936) (hini : h.numInitialSectors ≠ 0) :
    h.getPos 1 = .ok (h.headerOffset, 128) ∧ h.getPos 2 = .ok (h.headerOffset + 3, 128) ∧
    h.getPos 3 = .ok (h.headerOffset + 6, 128) := by
  have g := openHeader_geom ho
  rcases g.inits with gi | gi
  · omega
  · have hm := g.max
    rw [gi.1, gi.2.1, gi.2.2.1, h183] at hm
    have v : ∀ s, 1 ≤ s → s ≤ 3 → h.sectorIsValid s = true := fun s a c =>
      (AHeader.sectorIsValid_iff g s).mpr ⟨a, by omega⟩
    simp [AHeader.getPos, v, gi.1, gi.2.1]
    omega

/-- a 183936-byte XFD image is a witness -/
example : (openHeader (List.replicate 183936 0)).toOption.map (fun h => (h.imageSize, h.numInitialSectors))
    = some (183936, 3) := by rw [openHeader_zeros]; decide

/-- a 92160-byte image satisfies the hypotheses of the positive parts, with 720 sectors of 128 bytes -/
example : (openHeader (List.replicate 92160 0)).toOption.map (fun h => (h.imageSize, h.maxSectors, h.sectorSize))
    = some (92160, 720, 128) := by rw [openHeader_zeros]; decide

/-- C16: decoding an encoded ATR header gives back all its fields. -/
theorem C16_atr_header_roundtrip (h : AHeader) (h16 : 16 ∣ h.imageSize) (hi : h.imageSize < 2 ^ 28)
    (hs : h.sectorSize < 65536) (hc : h.crc < 2 ^ 32) (hu : h.unused < 2 ^ 32) (hf : h.flags < 256) :
    h.encode.length = 16 ∧ ∃ h', AHeader.parse h.encode = .ok h' ∧ h'.imageSize = h.imageSize ∧
      h'.sectorSize = h.sectorSize ∧ h'.crc = h.crc ∧ h'.unused = h.unused ∧ h'.flags = h.flags ∧
      h'.headerOffset = 16 := by
  refine ⟨by simp [AHeader.encode], ?_⟩
  simp only [AHeader.encode, enc16, enc32, List.cons_append, List.nil_append, AHeader.parse, le16_enc, le32_enc,
    toNat_ofNat]
  simp
  omega

/-- the limit `2^28` is sharp: the paragraph count has three bytes -/
theorem C16_size_limit_sharp : ∃ h : AHeader, h.imageSize = 2 ^ 28 ∧ ∃ h', AHeader.parse h.encode = .ok h' ∧
    h'.imageSize = 0 := ⟨{ imageSize := 2 ^ 28 }, rfl, _, rfl, by decide +kernel⟩

example : ∃ h : AHeader, 16 ∣ h.imageSize ∧ h.imageSize < 2 ^ 28 ∧ h.sectorSize < 65536 ∧ h.imageSize = 183936 :=
  ⟨{ imageSize := 183936, sectorSize := 256 }, by decide, by decide, by decide, rfl⟩

/-- C16 for whole files: putting an ATR header in front of any data gives a file that is opened as an ATR image with
exactly the geometry the header was made for. -/
theorem C16_add_atr_header (b : Bytes) : ∃ h, ({ headerOffset := 16 } : AHeader).checkSize b.length = .ok h ∧
    addAtrHeader b = .ok (h.encode ++ b) ∧ openHeader (h.encode ++ b) = .ok h := by
  have key : ∃ h, ({ headerOffset := 16 } : AHeader).checkSize b.length = .ok h ∧ h.sectorSize < 65536 ∧
      h.crc = 0 ∧ h.unused = 0 ∧ h.flags = 0 ∧
      ∀ h0 : AHeader, h0.sectorSize = h.sectorSize → h0.headerOffset = 16 → h0.crc = 0 → h0.unused = 0 →
        h0.flags = 0 → h0.startingSectorLabel = 1 → h0.initialSectorSize = 0 → h0.numInitialSectors = 0 →
        h0.checkSize b.length = .ok h := by
    unfold AHeader.checkSize
    by_cases c1 : b.length = 92160 ∨ b.length = 92176
    · simp [c1]; intros; simp_all
    by_cases c2 : b.length = 184320 ∨ b.length = 184336
    · simp [c1, c2]; intros; simp_all
    by_cases c3 : b.length = 183936 ∨ b.length = 183952
    · simp [c1, c2, c3]; intros; simp_all
    simp [c1, c2, c3]; intros; simp_all
  obtain ⟨h, k1, k2, k3, k4, k5, k6⟩ := key
  refine ⟨h, k1, by simp [addAtrHeader, k1], ?_⟩
  have hlen : h.encode.length = 16 := by simp [AHeader.encode]
  have hs : slice (h.encode ++ b) 0 16 = h.encode := by simp [slice, ← hlen]
  unfold openHeader readHeader
  rw [hs]
  have hp : ∃ h', AHeader.parse h.encode = .ok h' ∧ h'.sectorSize = h.sectorSize ∧ h'.crc = 0 ∧ h'.unused = 0 ∧
      h'.flags = 0 ∧ h'.headerOffset = 16 ∧ h'.startingSectorLabel = 1 ∧ h'.initialSectorSize = 0 ∧
      h'.numInitialSectors = 0 := by
    simp only [AHeader.encode, enc16, enc32, List.cons_append, List.nil_append, AHeader.parse, le16_enc, le32_enc,
      toNat_ofNat, k3, k4, k5]
    simp
    omega
  obtain ⟨h', p1, p2, p3, p4, p5, p6, p7, p8, p9⟩ := hp
  rw [p1]
  simp only [p6]
  rw [List.length_append, hlen, Nat.add_sub_cancel_left]
  exact k6 h' p2 p6 p3 p4 p5 p7 p8 p9

/-- C45 is false: an ATR header with sector size zero makes opening the image raise `ZeroDivisionError`, which is not
an `AtrError`.  This holds for every image with such a header whose size is not one of the special-cased sizes. -/
theorem C45_refuted_zero_sector_size (b : Bytes) (hl : 16 ≤ b.length) (hm : slice b 0 2 = [0x96, 0x02])
    (hz : slice b 4 6 = [0, 0])
    (hsz : b.length - 16 ∉ [92160, 92176, 184320, 184336, 183936, 183952]) :
    openHeader b = .error .zeroDivision ∧ Err.isAtr .zeroDivision = false := by
  refine ⟨?_, rfl⟩
  match b, hl with
  | m0 :: m1 :: p0 :: p1 :: s0 :: s1 :: ph :: c0 :: c1 :: c2 :: c3 :: u0 :: u1 :: u2 :: u3 :: fl :: r, _ =>
    simp [slice] at hm hz
    obtain ⟨rfl, rfl⟩ := hm
    obtain ⟨rfl, rfl⟩ := hz
    simp at hsz
    simp [openHeader, readHeader, slice, AHeader.parse, AHeader.checkSize, le16, hsz]

/-- C45, positive part: that is the only way in which reading the header can fail. -/
theorem C45_open_header_partial (b : Bytes) (e : Err) (ho : openHeader b = .error e) :
    e = .zeroDivision ∧ slice b 0 2 = [0x96, 0x02] ∧ slice b 4 6 = [0, 0] := by
  have hz : ∀ (h : AHeader) n, h.checkSize n = .error e → e = .zeroDivision ∧ h.sectorSize = 0 := by
    intro h n hc
    unfold AHeader.checkSize at hc
    by_cases c1 : n = 92160 ∨ n = 92176
    · simp [c1] at hc
    by_cases c2 : n = 184320 ∨ n = 184336
    · simp [c1, c2] at hc
    by_cases c3 : n = 183936 ∨ n = 183952
    · simp [c1, c2, c3] at hc
    simp [c1, c2, c3] at hc
    split at hc
    · simp at hc; exact ⟨hc.symm, by assumption⟩
    · simp at hc
  unfold openHeader at ho
  obtain ⟨h1, h2⟩ := hz _ _ ho
  refine ⟨h1, ?_⟩
  unfold readHeader at h2
  have e1 : slice b 0 2 = slice (slice b 0 16) 0 2 := by rw [slice_slice]; simp
  have e2 : slice b 4 6 = slice (slice b 0 16) 4 6 := by rw [slice_slice]; simp
  rw [e1, e2]
  generalize slice b 0 16 = l at h2
  unfold AHeader.parse at h2
  split at h2
  · rename_i hp
    split at hp
    · split at hp
      · simp at hp
      · simp at hp; subst hp
        rename_i m0 m1 p0 p1 s0 s1 ph c0 c1 c2 c3 u0 u1 u2 u3 fl hm
        simp [slice, le16] at *
        have a0 := m0.toNat_lt; have a1 := m1.toNat_lt
        have z0 : s0 = 0 := by rw [← ofNat_toNat s0, h2.1]; rfl
        have z1 : s1 = 0 := by rw [← ofNat_toNat s1, show s1.toNat = 0 by omega]; rfl
        have y0 : m0.toNat = 0x96 := by omega
        have y1 : m1.toNat = 2 := by omega
        refine ⟨⟨?_, ?_⟩, z0, z1⟩
        · rw [← ofNat_toNat m0, y0]; rfl
        · rw [← ofNat_toNat m1, y1]; rfl
    · simp at hp
  · simp at h2
/-- a 16-byte file is enough: magic, everything else zero -/
example : openHeader (0x96 :: 0x02 :: List.replicate 14 0) = .error .zeroDivision := by decide

end Atr
