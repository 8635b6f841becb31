import Verif.Props.Geometry
import Verif.Props.Xex
/-!
# C21, C22: KBoot boot disks
-/
namespace Atr

theorem xexbootHeader_length : xexbootHeader.length = 300 := by decide +kernel

theorem insertBytes_facts (data : Bytes) (offset : Nat) (string : Bytes) (color : UInt8) (hl : data.length = 384)
    (ho : 12 ≤ offset) (hs : string.length ≤ 20) (hf : offset + 20 ≤ 384) :
    (insertBytes data offset string color).length = 384 ∧ slice (insertBytes data offset string color) 9 12 = slice data 9 12 := by
  unfold insertBytes
  have hfit : offset + (20 - string.length) / 2 + (string.map fun c => (c - 32) ||| color).length ≤ data.length := by
    rw [List.length_map]; omega
  refine ⟨by rw [length_splice _ _ _ hfit, hl], ?_⟩
  exact slice_splice_disjoint _ _ _ _ _ hfit (Or.inl (by omega))

theorem kbBoot_facts (n : Nat) : (kbBoot n).length = 384 ∧ slice (kbBoot n) 9 12 = enc16 n ++ [0] := by
  have l0 : (splice xexbootHeader 9 (enc16 n)).length = 300 := by
    rw [length_splice _ _ _ (by rw [xexbootHeader_length]; simp [enc16]), xexbootHeader_length]
  have s0 : slice (splice xexbootHeader 9 (enc16 n)) 9 12 = enc16 n ++ [0] := rfl
  unfold kbBoot
  simp only
  generalize splice xexbootHeader 9 (enc16 n) = boot at l0 s0
  have l1 : (splice (List.replicate 384 (0 : UInt8)) 0 boot).length = 384 := by
    rw [length_splice _ _ _ (by rw [l0, List.length_replicate]; decide), List.length_replicate]
  have s1 : slice (splice (List.replicate 384 (0 : UInt8)) 0 boot) 9 12 = enc16 n ++ [0] := by
    rw [← s0]
    apply List.ext_getElem?
    intro k
    rw [getElem?_slice, getElem?_slice]
    split
    · rw [getElem?_splice _ _ _ _ (by rw [l0, List.length_replicate]; decide)]
      rw [if_neg (by omega), if_pos (by rw [l0]; omega)]
      rfl
    · rfl
  generalize splice (List.replicate 384 (0 : UInt8)) 0 boot = s at l1 s1
  obtain ⟨a1, a2⟩ := insertBytes_facts s 268 kbTitle 0xc0 l1 (by decide) (by decide) (by decide)
  obtain ⟨b1, b2⟩ := insertBytes_facts _ 308 kbAuthor 0x40 a1 (by decide) (by decide) (by decide)
  exact ⟨b1, by rw [b2, a2, s1]⟩

theorem addXexboot_length (x : Bytes) : (addXexboot x).length = 384 + (x.length + 127) / 128 * 128 := by
  unfold addXexboot
  rw [List.length_append, List.length_append, List.length_replicate, (kbBoot_facts _).1]
  omega

/-- the three bytes of the length field in an image file -/
theorem kboot_count (hd x : Bytes) (hl : hd.length = 16) : ∃ t, (hd ++ addXexboot x).drop 25 =
    UInt8.ofNat x.length :: UInt8.ofNat (x.length / 256) :: 0 :: t := by
  obtain ⟨h1, h2⟩ := kbBoot_facts x.length
  have : (kbBoot x.length).drop 9 = (UInt8.ofNat x.length :: UInt8.ofNat (x.length / 256) :: 0 :: (kbBoot x.length).drop 12) := by
    have e : slice (kbBoot x.length) 9 12 ++ (kbBoot x.length).drop 12 = (kbBoot x.length).drop 9 := by
      unfold slice
      rw [List.drop_take]
      have := List.take_append_drop 3 ((kbBoot x.length).drop 9)
      rw [List.drop_drop] at this
      exact this
    rw [← e, h2]; rfl
  refine ⟨(kbBoot x.length).drop 12 ++ (x ++ List.replicate ((x.length + 127) / 128 * 128 - x.length) 0), ?_⟩
  rw [List.drop_append, List.drop_eq_nil_of_le (by omega), List.nil_append, hl]
  unfold addXexboot
  rw [List.drop_append_of_le_length (by rw [h1]; decide), this]
  rfl

theorem checkSize_plain (n : Nat) (h1 : ¬ (n = 92160 ∨ n = 92176)) (h2 : ¬ (n = 184320 ∨ n = 184336))
    (h3 : ¬ (n = 183936 ∨ n = 183952)) : ({headerOffset := 16} : AHeader).checkSize n =
      .ok {headerOffset := 16, imageSize := n, maxSectors := n / 128, payloadBytes := 125} := by
  unfold AHeader.checkSize
  simp [h1, h2, h3]

/-- `create_boot_image` for an executable of fewer than 65536 bytes -/
theorem kboot_reads_back {x : Bytes} (hx : x ≠ []) (hlen : x.length < 65536) :
    ∃ b, addAtrHeader (addXexboot x) = .ok b ∧ kbootFile b = .ok x := by
  obtain ⟨h, k1, k2, k3⟩ := C16_add_atr_header (addXexboot x)
  have hpos := List.length_pos_iff.mpr hx
  have hal := addXexboot_length x
  have henc : h.encode.length = 16 := by simp [AHeader.encode, enc16, enc32]
  refine ⟨_, k2, ?_⟩
  have hh : h.headerOffset = 16 ∧ h.startingSectorLabel = 1 ∧ h.maxSectors = (addXexboot x).length / 128 ∧ h.numInitialSectors = 0 ∧
      h.sectorSize = 128 := by
    rw [checkSize_plain _ (by omega) (by omega) (by omega)] at k1
    injection k1 with k1
    rw [← k1]
    exact ⟨rfl, rfl, rfl, rfl, rfl⟩
  obtain ⟨e1, e2, e3, e4, e5⟩ := hh
  unfold kbootFile
  rw [k3]
  have hgp : h.getPos 4 = .ok (400, 128) := by
    unfold AHeader.getPos AHeader.sectorIsValid
    rw [e2, e3, e4, e5, e1]
    have : (4 : Nat) ≤ (addXexboot x).length / 128 := by omega
    have hv : (decide (1 ≤ 4) && decide (4 < (addXexboot x).length / 128 + 1)) = true := by
      rw [decide_eq_true (by omega : 4 < (addXexboot x).length / 128 + 1)]; rfl
    rw [hv]
    simp
  simp only [hgp]
  obtain ⟨t, ht⟩ := kboot_count h.encode x henc
  rw [e1, ht]
  simp only [toNat_ofNat]
  rw [show x.length % 256 + 256 * (x.length / 256 % 256) + 256 * 256 * (0 : UInt8).toNat = x.length by
    rw [show (0 : UInt8).toNat = 0 from rfl]; omega]
  have hbl : (h.encode ++ addXexboot x).length = 400 + (x.length + 127) / 128 * 128 := by
    rw [List.length_append, henc, hal]; omega
  rw [if_neg (by rw [hbl]; omega)]
  apply congrArg Except.ok
  unfold slice addXexboot
  rw [← List.append_assoc, ← List.append_assoc]
  have hfront : (h.encode ++ kbBoot x.length).length = 400 := by rw [List.length_append, henc, (kbBoot_facts _).1]
  rw [List.take_append_of_le_length (by rw [List.length_append, hfront]; exact Nat.le_refl _),
    List.take_of_length_le (by rw [List.length_append, hfront]; exact Nat.le_refl _), ← hfront, List.drop_left]

theorem getXex_ne_nil {segs r x} (h : getXex segs r = .ok x) : x ≠ [] := by
  unfold getXex at h
  split at h
  · cases h
  · injection h with h; subst h; simp

/-- **C21.** The boot disk built from segments, opened as a KBoot image, shows one file whose contents are exactly the XEX
bytes of the segments, provided these are fewer than 65536 bytes.  Beyond that it is false: `C21_too_long`. -/
theorem C21_partial {segs : List Seg} {r : Option Nat} {x : Bytes} (hx : getXex segs none = .ok x) (hlen : x.length < 65536) :
    ∃ b, createBootImage segs r = .ok b ∧ kbootFile b = .ok x := by
  unfold createBootImage
  rw [hx]
  exact kboot_reads_back (getXex_ne_nil hx) hlen

/-- **C21 is false for long executables**: the length field has 16 bits, so every boot disk made from an executable of
65536 bytes or more is rejected as a KBoot image. -/
theorem C21_too_long {segs : List Seg} {r : Option Nat} {x : Bytes} (hx : getXex segs none = .ok x) (hlen : 65536 ≤ x.length) :
    ∃ b, createBootImage segs r = .ok b ∧ kbootFile b = .error .invalidDiskImage := by
  unfold createBootImage
  rw [hx]
  obtain ⟨h, k1, k2, k3⟩ := C16_add_atr_header (addXexboot x)
  have hal := addXexboot_length x
  have henc : h.encode.length = 16 := by simp [AHeader.encode, enc16, enc32]
  refine ⟨_, k2, ?_⟩
  have g := openHeader_geom k3
  have hh : h.headerOffset = 16 ∧ h.startingSectorLabel = 1 ∧ 4 ≤ h.maxSectors ∧ (h.sectorSize = 128 ∨ h.sectorSize = 256) := by
    by_cases h1 : (addXexboot x).length = 92160 ∨ (addXexboot x).length = 92176
    · simp only [AHeader.checkSize, h1, if_true] at k1
      injection k1 with k1; rw [← k1]; exact ⟨rfl, rfl, by decide, Or.inl rfl⟩
    · by_cases h2 : (addXexboot x).length = 184320 ∨ (addXexboot x).length = 184336
      · simp only [AHeader.checkSize, h1, h2, if_true, if_false] at k1
        injection k1 with k1; rw [← k1]; exact ⟨rfl, rfl, by decide, Or.inr rfl⟩
      · by_cases h3 : (addXexboot x).length = 183936 ∨ (addXexboot x).length = 183952
        · simp only [AHeader.checkSize, h1, h2, h3, if_true, if_false] at k1
          injection k1 with k1; rw [← k1]; exact ⟨rfl, rfl, by decide, Or.inr rfl⟩
        · rw [checkSize_plain _ h1 h2 h3] at k1
          injection k1 with k1; rw [← k1]
          refine ⟨rfl, rfl, ?_, Or.inl rfl⟩
          show 4 ≤ (addXexboot x).length / 128
          omega
  obtain ⟨e1, e2, e3, e4⟩ := hh
  have hgp : ∃ p n, h.getPos 4 = .ok (p, n) ∧ p ≤ 784 := by
    have := AHeader.getPos_data g (s := 4) (by rcases g.inits with gi | gi <;> omega) e3
    refine ⟨_, _, this, ?_⟩
    unfold AHeader.dpos
    rcases g.inits with gi | gi
    · rw [e1, gi.1, gi.2]; rcases e4 with e4 | e4 <;> rw [e4] <;> decide
    · rw [e1, gi.1, gi.2.1, gi.2.2.1]; decide
  obtain ⟨p, n, hgp, hp⟩ := hgp
  unfold kbootFile
  rw [k3]
  simp only [hgp]
  obtain ⟨t, ht⟩ := kboot_count h.encode x henc
  rw [e1, ht]
  simp only [toNat_ofNat]
  have hbl : (h.encode ++ addXexboot x).length = 400 + (x.length + 127) / 128 * 128 := by
    rw [List.length_append, henc, hal]; omega
  by_cases hcnt : x.length < 65536 + 1024
  · have hsmall : x.length % 256 + 256 * (x.length / 256 % 256) < 1024 := by omega
    rw [show (0 : UInt8).toNat = 0 from rfl, if_pos (by rw [hbl]; right; omega)]
  · rw [show (0 : UInt8).toNat = 0 from rfl, if_pos (by rw [hbl]; right; omega)]

/-- both cases occur -/
example : ∃ x b, getXex [⟨0x600, [1, 2, 3]⟩] none = .ok x ∧ createBootImage [⟨0x600, [1, 2, 3]⟩] none = .ok b ∧ kbootFile b = .ok x := by
  obtain ⟨b, h1, h2⟩ := C21_partial (segs := [⟨0x600, [1, 2, 3]⟩]) (r := none) (x := _) rfl (by decide)
  exact ⟨_, b, rfl, h1, h2⟩
example : ∃ b, createBootImage [⟨0x1000, List.replicate 40000 1⟩, ⟨0x2000, List.replicate 40000 2⟩] none = .ok b ∧
    kbootFile b = .error .invalidDiskImage := by
  have hg : ∀ (d e : Bytes), d.length = 40000 → e.length = 40000 → ∃ b, createBootImage [⟨0x1000, d⟩, ⟨0x2000, e⟩] none = .ok b ∧
      kbootFile b = .error .invalidDiskImage := by
    intro d e hd he
    refine C21_too_long (x := [0xff, 0xff] ++ [⟨0x2e0, enc16 0x1000⟩, ⟨0x1000, d⟩, ⟨0x2000, e⟩].flatMap xexPiece) rfl ?_
    simp only [List.flatMap_cons, List.length_append, xexPiece, hd]
    omega
  exact hg _ _ List.length_replicate List.length_replicate

/-! ### C22 -/

/-- **C22 is false**: the run address is ignored, whatever it is … -/
theorem C22_run_address_ignored (segs : List Seg) (r r' : Option Nat) : createBootImage segs r = createBootImage segs r' := rfl

/-- … and the boot disk always states the first origin instead (when no segment at 0x2e0 is supplied). -/
theorem C22_states_first_origin {s : Seg} {segs : List Seg} {r : Option Nat} {x : Bytes} (hw : ∀ t ∈ s :: segs, t.Wf)
    (hno : ∀ t ∈ s :: segs, t.origin ≠ 0x2e0) (hx : getXex (s :: segs) none = .ok x) (hlen : x.length < 65536) :
    ∃ b f ps, createBootImage (s :: segs) r = .ok b ∧ kbootFile b = .ok f ∧ parseXex f = .ok ps ∧
      ps.map XSeg.view = (⟨0x2e0, enc16 s.origin⟩ :: s :: segs : List Seg).map Seg.view := by
  obtain ⟨b, h1, h2⟩ := C21_partial (r := r) hx hlen
  obtain ⟨ps, h3, h4⟩ := C17_build_then_parse hw hx
  refine ⟨b, x, ps, h1, h2, h3, ?_⟩
  rw [h4]
  unfold expectedSegs
  rw [if_neg (by rintro ⟨t, ht, he⟩; exact hno t ht he)]
  rfl

/-- **C22, the part that holds**: the stated run address is right if the user asks for the first origin. -/
theorem C22_partial {s : Seg} {segs : List Seg} {x : Bytes} (hw : ∀ t ∈ s :: segs, t.Wf)
    (hno : ∀ t ∈ s :: segs, t.origin ≠ 0x2e0) (hx : getXex (s :: segs) none = .ok x) (hlen : x.length < 65536) :
    ∃ b f p ps, createBootImage (s :: segs) (some s.origin) = .ok b ∧ kbootFile b = .ok f ∧ parseXex f = .ok (p :: ps) ∧
      p.kind = .run ∧ p.data = enc16 s.origin := by
  obtain ⟨b, f, ps, h1, h2, h3, h4⟩ := C22_states_first_origin (r := some s.origin) hw hno hx hlen
  cases ps with
  | nil => cases h4
  | cons p ps =>
    rw [List.map_cons, List.map_cons] at h4
    injection h4 with h4 _
    unfold XSeg.view Seg.view at h4
    injection h4 with _ h4
    injection h4 with h5 h6
    exact ⟨b, f, p, ps, h1, h2, h3, h6, h5⟩

/-- asked to start at 0x2001, the disk says 0x600 -/
example : ∃ b f, createBootImage [⟨0x600, [1, 2, 3]⟩, ⟨0x2000, [4, 5]⟩] (some 0x2001) = .ok b ∧ kbootFile b = .ok f ∧
    ∃ ps, parseXex f = .ok (⟨.run, 6, 0x2e0, [0x00, 0x06]⟩ :: ps) := by
  obtain ⟨b, h1, h2⟩ := C21_partial (segs := [⟨0x600, [1, 2, 3]⟩, ⟨0x2000, [4, 5]⟩]) (r := some 0x2001) (x := _) rfl (by decide)
  exact ⟨b, _, h1, h2, [⟨.obj, 12, 0x600, [1, 2, 3]⟩, ⟨.obj, 19, 0x2000, [4, 5]⟩], by decide +kernel⟩

end Atr
