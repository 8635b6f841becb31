import Verif.Spec.Detect
import Verif.Model.Detect
import Verif.Props.AtariBoot
import Verif.Props.Parsers
/-! # Facts about the parsers of Atari disks -/
namespace Atr

/-- how an exception leaves a parser: parsers.py:79-82 -/
def sealErr (e : Err) : Err :=
  if e = .unsupportedDiskImage then e else if e.isAtr then .invalidSegmentParser else e

theorem parse_eq (c : ImageClass) (strict : Bool) (raw : Bytes) : c.parse strict raw =
    match c.parseBody strict raw with
    | .ok im => .ok im
    | .error e => .error (sealErr e) := by
  unfold ImageClass.parse sealErr
  cases c.parseBody strict raw with
  | ok x => rfl
  | error e => cases e <;> rfl

theorem strictCheck_eq (h : AHeader) (n : Nat) :
    h.strictCheck n = if h.headerOffset = 16 ∨ n ∈ xfdSizes then .ok () else .error .invalidDiskImage := by
  unfold AHeader.strictCheck xfdSizes
  by_cases h1 : h.headerOffset = 16
  · rw [if_pos h1, if_pos (Or.inl h1)]
  · rw [if_neg h1]
    by_cases h2 : n ∈ [92160, 133120, 183936, 184320]
    · rw [if_pos h2, if_pos (Or.inr h2)]
    · rw [if_neg h2, if_neg]
      rintro (h | h)
      · exact h1 h
      · exact h2 h

/-- a parser of Atari disks, step by step -/
theorem diskClass_parser {τ : Type} (new : Bytes → Except Err τ) (hdr : τ → AHeader) (size : τ → Nat) (segs : τ → Except Err (List ISeg))
    (wrap : τ × List ISeg → Image) (b : Bytes) : (diskClass new hdr size segs).parser wrap b true =
    match new b with
    | .error e => .error (sealErr e)
    | .ok m =>
      if (hdr m).headerOffset = 16 ∨ size m ∈ xfdSizes then
        match segs m with
        | .error e => .error (sealErr e)
        | .ok s => .ok (wrap (m, s))
      else .error .invalidSegmentParser := by
  unfold ImageClass.parser
  rw [parse_eq]
  unfold ImageClass.parseBody
  simp only [diskClass]
  cases new b with
  | error e => rfl
  | ok m =>
    simp only [Except.map, ImageClass.checkImage, if_true]
    rw [strictCheck_eq]
    by_cases hs : (hdr m).headerOffset = 16 ∨ size m ∈ xfdSizes
    · rw [if_pos hs, if_pos hs]
      simp only
      cases segs m with
      | error e => rfl
      | ok s => rfl
    · rw [if_neg hs, if_neg hs]
      rfl

theorem getD_slice {b : Bytes} {i j k : Nat} (h : i + k < j) : (slice b i j).getD k 0 = b.getD (i + k) 0 := by
  unfold slice
  rw [List.getD_eq_getElem?_getD, List.getD_eq_getElem?_getD, List.getElem?_drop, List.getElem?_take_of_lt (by omega)]

/-- sector 1 starts right after the header -/
theorem getPos_first {h : AHeader} {n : Nat} (g : h.Geom n) (hm : 1 ≤ h.maxSectors) : ∃ k, h.getPos 1 = .ok (h.headerOffset, k) ∧
    (k = h.sectorSize ∨ k = 128) ∧ h.headerOffset + k ≤ n := by
  obtain ⟨p, k, hp⟩ := AHeader.getPos_isOk g (Nat.le_refl 1) hm
  have hf := getPos_fits g hp
  obtain ⟨_, _, h1⟩ := AHeader.getPos_ok g hp
  rcases h1 with ⟨a, b, c⟩ | ⟨a, b, c, d⟩
  · unfold AHeader.dpos at b
    rcases g.inits with gi | gi
    · rw [gi.1, gi.2] at b
      have : p = h.headerOffset := by omega
      subst this
      exact ⟨k, hp, Or.inl c, hf⟩
    · omega
  · have : p = h.headerOffset := by omega
    subst this
    exact ⟨k, hp, Or.inr c, hf⟩

/-- sector 4 starts right after the boot sectors -/
theorem getPos_fourth {h : AHeader} {n : Nat} (g : h.Geom n) (hm : 4 ≤ h.maxSectors) : h.getPos 4 = .ok (bootEnd h, h.sectorSize) ∧
    bootEnd h + h.sectorSize ≤ n := by
  obtain ⟨p, k, hp⟩ := AHeader.getPos_isOk g (by omega) hm
  have hf := getPos_fits g hp
  obtain ⟨_, _, h1⟩ := AHeader.getPos_ok g hp
  rcases h1 with ⟨a, b, c⟩ | ⟨a, b, c, d⟩
  · unfold AHeader.dpos at b
    have : p = bootEnd h := by
      unfold bootEnd
      rcases g.inits with gi | gi
      · rw [gi.1, gi.2] at b; rw [gi.1, if_neg (by decide)]; omega
      · rw [gi.1, gi.2.1] at b; rw [gi.1, if_pos rfl]; omega
    subst this; subst c
    exact ⟨hp, hf⟩
  · omega

theorem drop_getD {b : Bytes} {i : Nat} (h : i < b.length) : b.drop i = b.getD i 0 :: b.drop (i + 1) := by
  rw [List.drop_eq_getElem_cons h, List.getD_eq_getElem?_getD, List.getElem?_eq_getElem h]
  rfl

theorem drop_three {b : Bytes} {i : Nat} (h : i + 3 ≤ b.length) : ∃ t, b.drop i = b.getD i 0 :: b.getD (i + 1) 0 :: b.getD (i + 2) 0 :: t := by
  exact ⟨b.drop (i + 3), by rw [drop_getD (i := i) (by omega), drop_getD (i := i + 1) (by omega), drop_getD (i := i + 1 + 1) (by omega)]⟩

instance (h : AHeader) (b : Bytes) : Decidable (KbootLike h b) := by unfold KbootLike; exact inferInstance
instance (h : AHeader) (b : Bytes) : Decidable (SpartaLike h b) := by unfold SpartaLike; exact inferInstance
instance (h : AHeader) (b : Bytes) : Decidable (BootLike h b) := by unfold BootLike; exact inferInstance
instance (h : AHeader) (b : Bytes) : Decidable (UsualDisk h b) := by unfold UsualDisk; exact inferInstance

/-- opening as a KBoot disk: only the stated length matters -/
theorem openKboot_eq {b : Bytes} {h : AHeader} (ho : openHeader b = .ok h) (hs : 3 ≤ h.sectorSize) (hm : 4 ≤ h.maxSectors) : openKboot b =
    if KbootLike h b then .ok { hdr := h, bytes := b, exe := slice b (bootEnd h) (bootEnd h + kbootLength h b) }
    else .error .invalidDiskImage := by
  have g := openHeader_geom ho
  obtain ⟨hp, hl⟩ := getPos_fourth g hm
  have hl9 : h.headerOffset + 9 + 3 ≤ b.length := by
    have : h.headerOffset + 9 ≤ bootEnd h := by unfold bootEnd; split <;> omega
    omega
  obtain ⟨t, ht⟩ := drop_three hl9
  unfold openKboot kbootFile
  rw [ho]
  simp only
  rw [hp]
  simp only
  rw [ht]
  simp only
  have e : (b.getD (h.headerOffset + 9) 0).toNat + 256 * (b.getD (h.headerOffset + 9 + 1) 0).toNat +
      256 * 256 * (b.getD (h.headerOffset + 9 + 2) 0).toNat = kbootLength h b := rfl
  rw [e]
  clear e
  by_cases hk : bootEnd h + kbootLength h b > b.length ∨ bootEnd h + kbootLength h b + 128 < b.length
  · rw [if_pos hk, if_neg (show ¬ KbootLike h b from fun c => by have := c.1; have := c.2; omega)]; rfl
  · rw [if_neg hk, if_pos (show KbootLike h b from ⟨by omega, by omega⟩)]; rfl

/-- the boot record test of SpartaDOS -/
theorem spartaBoot_eq {b : Bytes} {h : AHeader} (g : h.Geom b.length) (hs : 33 ≤ h.sectorSize) (hm : 1 ≤ h.maxSectors) : spartaBoot h b =
    if SpartaLike h b then .ok (bootWord h b 9) else .error .invalidDiskImage := by
  obtain ⟨k, hp, hk, hl⟩ := getPos_first g hm
  have hk33 : 33 ≤ k := by omega
  unfold spartaBoot
  rw [getSectors_one_eq, hp]
  simp only
  have hlen : ¬ (slice b h.headerOffset (h.headerOffset + k)).length < 33 := by rw [length_slice]; omega
  rw [if_neg hlen]
  have hg : ∀ i, i < 33 → (slice b h.headerOffset (h.headerOffset + k)).getD i 0 = b.getD (h.headerOffset + i) 0 :=
    fun i hi => getD_slice (by omega)
  have hw : ∀ i, i + 1 < 33 → le16 ((slice b h.headerOffset (h.headerOffset + k)).getD i 0)
      ((slice b h.headerOffset (h.headerOffset + k)).getD (i + 1) 0) = bootWord h b i := by
    intro i hi
    rw [hg i (by omega), hg (i + 1) (by omega)]
    rfl
  have h8 : ∀ i (c : UInt8), (b.getD (h.headerOffset + i) 0 = c) ↔ bootByte h b i = c.toNat := by
    intro i c
    unfold bootByte
    exact UInt8.toNat_inj.symm
  rw [hw 11 (by omega), hw 18 (by omega), hw 16 (by omega), hw 9 (by omega), hg 32 (by omega), hg 31 (by omega)]
  simp only [h8]
  rfl

theorem bootCheckSize_eq {b : Bytes} {h : AHeader} (g : h.Geom b.length) (hs : 4 ≤ h.sectorSize) (hm : 1 ≤ h.maxSectors) : bootCheckSize h b =
    if BootLike h b then .ok () else .error .invalidDiskImage := by
  obtain ⟨k, hp, hk, hl⟩ := getPos_first g hm
  unfold bootCheckSize
  rw [hp]
  simp only
  have hd : b.drop h.headerOffset = b.getD (h.headerOffset + 0) 0 :: b.getD (h.headerOffset + 1) 0 :: b.getD (h.headerOffset + 2) 0 ::
      b.getD (h.headerOffset + 3) 0 :: b.drop (h.headerOffset + 4) := by
    rw [drop_getD (i := h.headerOffset) (by omega), drop_getD (i := h.headerOffset + 1) (by omega),
      drop_getD (i := h.headerOffset + 1 + 1) (by omega), drop_getD (i := h.headerOffset + 1 + 1 + 1) (by omega)]
    rfl
  rw [hd]
  simp only
  have e0 : le16 (b.getD (h.headerOffset + 0) 0) (b.getD (h.headerOffset + 1) 0) = bootWord h b 0 := rfl
  have e2 : le16 (b.getD (h.headerOffset + 2) 0) (b.getD (h.headerOffset + 3) 0) = bootWord h b 2 := rfl
  have e1 : (b.getD (h.headerOffset + 1) 0).toNat = bootByte h b 1 := rfl
  rw [e0, e2, e1]
  clear hd e0 e1 e2
  by_cases hf : bootWord h b 0 = 0xffff
  · rw [if_pos hf, if_neg (show ¬ BootLike h b from fun c => c.1 hf)]
  · rw [if_neg hf]
    have hpos : (0 : Int) < h.sectorSize := by omega
    have key : ((bootByte h b 1 : Int) > ((0xc000 : Int) - bootWord h b 2) / h.sectorSize) ↔
        ¬ (bootWord h b 2 + bootByte h b 1 * h.sectorSize ≤ 0xc000) := by
      rw [gt_iff_lt, Int.ediv_lt_iff_lt_mul hpos]
      have : ((bootByte h b 1 * h.sectorSize : Nat) : Int) = (bootByte h b 1 : Int) * h.sectorSize := Int.natCast_mul _ _
      omega
    by_cases hb : 1 ≤ bootByte h b 1 ∧ bootWord h b 2 + bootByte h b 1 * h.sectorSize ≤ 0xc000
    · rw [if_neg (by rw [key]; omega), if_neg (by omega), if_pos (show BootLike h b from ⟨hf, hb⟩)]
    · rw [if_pos (by rw [key]; omega), if_neg (show ¬ BootLike h b from fun c => hb c.2)]

end Atr
