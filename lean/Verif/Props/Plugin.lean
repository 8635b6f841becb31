import Verif.Model.Savers
import Verif.Spec.Outcome
import Verif.Props.ProgramFiles
import Verif.Props.DetectOther
/-! # C103: the plug-in for the loader of Omnivore, and disks with unusual sectors -/
namespace Atr

/-- A file with an ATR header that states sectors of `ss` bytes, and none of the sizes for which the stated size is ignored. -/
structure AtrFile (ss : Nat) (b : Bytes) : Prop where
  header : 16 ≤ b.length
  magic : b.take 2 = [0x96, 0x02]
  stated : le16 (b.getD 4 0) (b.getD 5 0) = ss
  size : b.length - 16 ∉ [92160, 92176, 184320, 184336, 183936, 183952]

theorem AtrFile.split {ss : Nat} {b : Bytes} (f : AtrFile ss b) : ∃ p0 p1 s0 s1 ph c0 c1 c2 c3 u0 u1 u2 u3 fl rest,
    b = [0x96, 0x02, p0, p1, s0, s1, ph, c0, c1, c2, c3, u0, u1, u2, u3, fl] ++ rest ∧ le16 s0 s1 = ss := by
  obtain ⟨h1, h2, h3, -⟩ := f
  match b, h1, h2, h3 with
  | m0 :: m1 :: p0 :: p1 :: s0 :: s1 :: ph :: c0 :: c1 :: c2 :: c3 :: u0 :: u1 :: u2 :: u3 :: fl :: rest, _, h2, h3 =>
    simp only [List.take_succ_cons, List.take_zero, List.cons.injEq, and_true] at h2
    exact ⟨p0, p1, s0, s1, ph, c0, c1, c2, c3, u0, u1, u2, u3, fl, rest, by rw [h2.1, h2.2]; rfl, h3⟩

/-- what opening such a file makes of the header -/
theorem AtrFile.open {ss : Nat} {b : Bytes} (f : AtrFile ss b) :
    (ss = 0 → openHeader b = .error .zeroDivision) ∧
    (0 < ss → ∃ h, openHeader b = .ok h ∧ h.headerOffset = 16 ∧ h.sectorSize = ss ∧ h.numInitialSectors = 0 ∧ h.maxSectors = (b.length - 16) / ss) := by
  obtain ⟨p0, p1, s0, s1, ph, c0, c1, c2, c3, u0, u1, u2, u3, fl, rest, hb, hs⟩ := f.split
  have hsz := f.size
  simp only [List.mem_cons, List.not_mem_nil, or_false, not_or] at hsz
  obtain ⟨z1, z2, z3, z4, z5, z6⟩ := hsz
  have hsl : slice b 0 16 = [0x96, 0x02, p0, p1, s0, s1, ph, c0, c1, c2, c3, u0, u1, u2, u3, fl] := by rw [hb]; rfl
  have hp : AHeader.parse (slice b 0 16) = .ok {
      imageSize := (ph.toNat * 256 * 256 + le16 p0 p1) * 16, sectorSize := ss, crc := le32 c0 c1 c2 c3
      unused := le32 u0 u1 u2 u3, flags := fl.toNat, headerOffset := 16 } := by
    rw [hsl]
    unfold AHeader.parse
    simp only
    rw [if_neg (by decide), hs]
  unfold openHeader readHeader
  rw [hp]
  simp only
  unfold AHeader.checkSize
  simp only [z1, z2, z3, z4, z5, z6, or_self, if_false]
  refine ⟨fun h => if_pos h, fun h => ?_⟩
  rw [if_neg (by omega)]
  exact ⟨_, rfl, rfl, rfl, rfl, rfl⟩

/-- **C103, refuted: no sector size.** A file with an ATR header that states a sector size of 0 makes detection, and with it the plug-in and
all commands, stop with `ZeroDivisionError`. -/
theorem C103_refuted_zero {L : Libs} {b : Bytes} (hp : L.Plain b) (f : AtrFile 0 b) :
    detect L b = .error (.py .zeroDivision) ∧ identifyMime L (some b) = .error (.py .zeroDivision) := by
  have h : detect L b = .error (.py .zeroDivision) := by
    apply detect_atr_error hp
    have e0 := diskClass_parser openKboot HImg.hdr (fun m => m.bytes.length) (fun m => .ok (kbootSegments m.hdr m.bytes m.exe)) (fun x => .kboot x.1 x.2) b
    change kbootParser b true = _ at e0
    have : openKboot b = .error .zeroDivision := by
      unfold openKboot
      rw [f.open.1 rfl]
    rw [this] at e0
    unfold atrParsers
    rw [tryParsers, e0]
    rfl
  refine ⟨h, ?_⟩
  unfold identifyMime
  simp only
  rw [h]

theorem openKboot_long {b : Bytes} {h : AHeader} (ho : openHeader b = .ok h) (hl : h.headerOffset + 12 ≤ b.length) (hm : 4 ≤ h.maxSectors) (hk : ¬ KbootLike h b) :
    openKboot b = .error .invalidDiskImage := by
  have g := openHeader_geom ho
  obtain ⟨hp, _⟩ := getPos_fourth g hm
  obtain ⟨t, ht⟩ := drop_three (b := b) (i := h.headerOffset + 9) (by omega)
  unfold openKboot kbootFile
  rw [ho]
  simp only
  rw [hp]
  simp only
  rw [ht]
  simp only
  have e : (b.getD (h.headerOffset + 9) 0).toNat + 256 * (b.getD (h.headerOffset + 9 + 1) 0).toNat +
      256 * 256 * (b.getD (h.headerOffset + 9 + 2) 0).toNat = kbootLength h b := rfl
  rw [e]
  clear e
  rw [if_pos]
  · rfl
  · unfold KbootLike at hk
    omega

/-- **C103, refuted: small sectors.** A file with an ATR header that states sectors of 1 to 32 bytes, with at least one sector, makes detection
stop with `ValueError`, or with `IndexError` if there are four sectors of one or two bytes in less than 28 bytes; unless it looks like a
KBoot disk. -/
theorem C103_refuted_small {L : Libs} {b : Bytes} {ss : Nat} (hp : L.Plain b) (f : AtrFile ss b) (h0 : 0 < ss) (h32 : ss ≤ 32) (h1 : 16 + ss ≤ b.length)
    (hk : ∀ h, openHeader b = .ok h → 4 * ss + 16 ≤ b.length → 28 ≤ b.length → ¬ KbootLike h b) :
    ∃ e, detect L b = .error (.py e) ∧ identifyMime L (some b) = .error (.py e) ∧
      (if 4 * ss + 16 ≤ b.length ∧ b.length < 28 then e = .indexError else e = .valueError) := by
  obtain ⟨h, ho, ho1, ho2, ho3, ho4⟩ := f.open.2 h0
  have g := openHeader_geom ho
  have hmax : ∀ k, k ≤ h.maxSectors ↔ k * ss + 16 ≤ b.length := by
    intro k
    rw [ho4, Nat.le_div_iff_mul_le h0]
    omega
  have hfst := (hmax 1).mpr (by omega)
  have e0 := diskClass_parser openKboot HImg.hdr (fun m => m.bytes.length) (fun m => .ok (kbootSegments m.hdr m.bytes m.exe)) (fun x => .kboot x.1 x.2) b
  change kbootParser b true = _ at e0
  suffices hd : ∃ e, detect L b = .error (.py e) ∧ (if 4 * ss + 16 ≤ b.length ∧ b.length < 28 then e = .indexError else e = .valueError) by
    obtain ⟨e, d1, d2⟩ := hd
    refine ⟨e, d1, ?_, d2⟩
    unfold identifyMime
    simp only
    rw [d1]
    split at d2 <;> subst d2 <;> rfl
  by_cases hc : 4 * ss + 16 ≤ b.length ∧ b.length < 28
  · refine ⟨.indexError, detect_atr_error hp ?_, by rw [if_pos hc]⟩
    have : openKboot b = .error .indexError := by
      unfold openKboot kbootFile
      rw [ho]
      simp only
      rw [(getPos_fourth g ((hmax 4).mpr hc.1)).1]
      simp only
      have hl : (b.drop (h.headerOffset + 9)).length < 3 := by rw [List.length_drop]; omega
      generalize b.drop (h.headerOffset + 9) = l at hl
      match l, hl with
      | [], _ => rfl
      | [_], _ => rfl
      | [_, _], _ => rfl
    rw [this] at e0
    unfold atrParsers
    rw [tryParsers, e0]
    rfl
  · refine ⟨.valueError, detect_atr_error hp ?_, by rw [if_neg hc]⟩
    have h2 : kbootParser b true = .error .invalidSegmentParser := by
      by_cases h4 : 4 * ss + 16 ≤ b.length
      · rw [openKboot_long ho (by omega) ((hmax 4).mpr h4) (hk h ho h4 (by omega))] at e0
        exact e0
      · have : openKboot b = .error .byteNotInFile := by
          unfold openKboot kbootFile
          rw [ho]
          simp only
          rw [getPos_error g (fun hc => h4 ((hmax 4).mp hc.2))]
          rfl
        rw [this] at e0
        exact e0
    unfold atrParsers
    rw [try_step h2]
    have e1 := diskClass_parser SImg.open SImg.hdr (fun m => m.bytes.length) SImg.segments (fun x => .sparta x.1 x.2) b
    change spartaParser b true = _ at e1
    have : SImg.open b = .error .valueError := by
      unfold SImg.open
      rw [ho]
      simp only
      unfold spartaBoot
      obtain ⟨k, k1, k2, k3⟩ := getPos_first g hfst
      rw [getSectors_one_eq, k1]
      simp only
      have : k ≤ 32 := by
        have := (AHeader.getPos_ok g k1).2.2
        rcases this with ⟨a, _, c⟩ | ⟨_, _, _, _⟩ <;> omega
      rw [if_pos (by rw [length_slice]; omega)]
    rw [this] at e1
    rw [tryParsers, e1]
    rfl

/-- **C103, what is raised.** The plug-in raises exactly the exceptions of detection other than those of unknown files and of the operating system; a
file that cannot be read is not recognised. -/
theorem C103_raises (L : Libs) : identifyMime L none = .ok none ∧
    ∀ b e, identifyMime L (some b) = .error e ↔ detect L b = .error e ∧ e ∉ toldErrors := by
  refine ⟨rfl, fun b e => ?_⟩
  unfold identifyMime toldErrors
  simp only
  cases hd : detect L b with
  | ok r => simp
  | error x =>
    constructor
    · intro h
      split at h
      · cases h
      · cases h
      · cases h
      · cases h
      · cases h
      · rename_i y n1 n2 n3 n4 he
        cases he
        cases h
        refine ⟨rfl, fun hm => ?_⟩
        simp only [List.mem_cons, List.not_mem_nil, or_false] at hm
        rcases hm with rfl | rfl | rfl | rfl
        · exact n1 rfl
        · exact n2 rfl
        · exact n3 rfl
        · exact n4 rfl
    · rintro ⟨h, hm⟩
      cases h
      split
      · rename_i hx; cases hx
      · rename_i hx; cases hx; exact absurd (by simp) hm
      · rename_i hx; cases hx; exact absurd (by simp) hm
      · rename_i hx; cases hx; exact absurd (by simp) hm
      · rename_i hx; cases hx; exact absurd (by simp) hm
      · rename_i hx; cases hx; rfl

/-- **C103, disks.** Atari DOS and DOS 3.3 disks are given with their type. -/
theorem C103_disks {L : Libs} {b : Bytes} {M : FMap} :
    (∀ hd, AtariDisk L hd M b → ∃ m segs t, AImg.open b = .ok m ∧ identifyMime L (some b) = .ok (some (.atari m segs, t))) ∧
    (∀ cat, Dos33Disk L cat M b → L.zip b = .ok none → ∃ m segs t, DImg.open b = .ok m ∧ identifyMime L (some b) = .ok (some (.dos33 m segs, t))) := by
  refine ⟨fun hd h => ?_, fun cat h hz => ?_⟩
  · obtain ⟨m, segs, t, h1, h2⟩ := stores_detect h
    refine ⟨m, segs, t, h1, ?_⟩
    unfold identifyMime
    simp only
    rw [h2]
  · obtain ⟨m, segs, t, h1, h2⟩ := detect33 h hz
    refine ⟨m, segs, t, h1, ?_⟩
    unfold identifyMime
    simp only
    rw [h2]

/-- **C103, the rest.** Of the files that are no disks, no executables and no cartridges, BSAVE files and files of a power of two bytes are given,
and for all others the answer is `None`. -/
theorem C103_rest {L : Libs} {b : Bytes} (d : OtherFile L b) (hx : ∀ l, ¬ XexFile b l) (hc : ∀ t five, ¬ CartOf t five b) (hl : b.length ≠ 143360) :
    identifyMime L (some b) = .ok none ↔ (∀ s, ¬ BsaveFile b s) ∧ ¬ ∃ k, b.length = 2 ^ k := by
  obtain ⟨h1, h2, h3⟩ := C71_rest d hx hc hl
  have some_ne : ∀ r, detect L b = .ok r → identifyMime L (some b) ≠ .ok none := by
    intro r hr h
    unfold identifyMime at h
    simp only at h
    rw [hr] at h
    cases h
  constructor
  · intro h
    have a : ∀ s, ¬ BsaveFile b s := fun s hs => by
      obtain ⟨t, ht⟩ := h1 s hs
      exact some_ne _ ht h
    refine ⟨a, fun hk => ?_⟩
    obtain ⟨t, ht⟩ := h2 a hk
    exact some_ne _ ht h
  · rintro ⟨a, c⟩
    unfold identifyMime
    simp only
    rw [h3 a c]

/-- a header without sector size, and one with sectors of four bytes, two of them -/
theorem plain_atr (r : Bytes) : magicLibs.Plain (0x96 :: r) := by
  refine ⟨Or.inl ?_, Or.inl ?_, Or.inl ?_, ?_, rfl⟩
  · simp [magicLibs]
  · simp [magicLibs]
  · simp [magicLibs]
  · rintro ⟨a, b, q, h, ha, _⟩
    injection h with h _
    subst h
    rcases ha with ha | ha <;> exact absurd ha (by decide)

example : identifyMime magicLibs (some [0x96, 2, 0, 0, 0, 0, 0, 0, 0, 0, 0, 0, 0, 0, 0, 0]) = .error (.py .zeroDivision) :=
  (C103_refuted_zero (plain_atr _) ⟨by decide, by decide, by decide, by decide⟩).2
example : identifyMime magicLibs (some [0x96, 2, 0, 0, 4, 0, 0, 0, 0, 0, 0, 0, 0, 0, 0, 0, 1, 2, 3, 4, 5, 6, 7, 8]) = .error (.py .valueError) := by
  obtain ⟨e, _, h1, h2⟩ := C103_refuted_small (plain_atr _) (ss := 4)
    (b := [0x96, 2, 0, 0, 4, 0, 0, 0, 0, 0, 0, 0, 0, 0, 0, 0, 1, 2, 3, 4, 5, 6, 7, 8]) ⟨by decide, by decide, by decide, by decide⟩ (by decide) (by decide) (by decide)
    (fun _ _ h _ => absurd h (by decide))
  rw [if_neg (by decide)] at h2
  rw [h1, h2]
example : identifyMime magicLibs (some [0x96, 2, 0, 0, 1, 0, 0, 0, 0, 0, 0, 0, 0, 0, 0, 0, 1, 2, 3, 4]) = .error (.py .indexError) := by
  obtain ⟨e, _, h1, h2⟩ := C103_refuted_small (plain_atr _) (ss := 1)
    (b := [0x96, 2, 0, 0, 1, 0, 0, 0, 0, 0, 0, 0, 0, 0, 0, 0, 1, 2, 3, 4]) ⟨by decide, by decide, by decide, by decide⟩ (by decide) (by decide) (by decide)
    (fun _ _ _ h => absurd h (by decide))
  rw [if_pos (by decide)] at h2
  rw [h1, h2]
example : identifyMime magicLibs (some [1, 2, 3, 4, 5]) = .ok none := by
  unfold identifyMime
  simp only
  rw [detect_small.2.2]

end Atr
