import Verif.Model.Labels
import Verif.Spec.Labels
import Verif.Lemmas.Display
import Verif.Lemmas.Header
/-!
# C89: labels name the sector and the byte
-/
namespace Atr

/-! ### the text -/

theorem lower_digit : ∀ d, d < 16 → (Nat.digitChar d).toLower = Nat.digitChar d ∧ (upperHex (Nat.digitChar d)).toLower = Nat.digitChar d := by decide +kernel

theorem toDigits_lower (n : Nat) : ((Nat.toDigits 16 n).map Char.toLower = Nat.toDigits 16 n) ∧
    ((Nat.toDigits 16 n).map upperHex).map Char.toLower = Nat.toDigits 16 n := by
  induction n using Nat.strongRecOn with
  | ind n ih =>
    by_cases h : n < 16
    · rw [Nat.toDigits_of_lt_base h]
      simp only [List.map_cons, List.map_nil]
      rw [(lower_digit n h).1, (lower_digit n h).2]
      exact ⟨rfl, rfl⟩
    · obtain ⟨i1, i2⟩ := ih (n / 16) (by omega)
      obtain ⟨d1, d2⟩ := lower_digit (n % 16) (by omega)
      rw [Nat.toDigits_eq_if (by decide), if_neg h]
      simp only [List.map_append, List.map_cons, List.map_nil, i1, i2, d1, d2, and_self]

theorem valueOf_pctHex2 (lower : Bool) (n : Nat) : valueOf 16 ((pctHex2 lower n).map Char.toLower) = n := by
  have hz : (List.replicate (2 - (Nat.toDigits 16 n).length) '0').map Char.toLower = List.replicate (2 - (Nat.toDigits 16 n).length) '0' := by
    rw [List.map_replicate]; rfl
  unfold pctHex2
  simp only
  rw [List.map_append, hz]
  cases lower with
  | true => rw [if_pos rfl, (toDigits_lower n).1, valueOf_zeros, valueOf_digits (by decide) (by decide)]
  | false => rw [if_neg (by decide), (toDigits_lower n).2, valueOf_zeros, valueOf_digits (by decide) (by decide)]

/-- **C89, the text.** A label can be read back: it names the sector and the byte that `place` computes. -/
theorem C89_text (g : SecSeg) (i : Nat) (lower : Bool) {s b : Nat} (h : g.place i = .ok (s, b)) :
    ∃ t, g.label i lower = .ok t ∧ readLabel t = some (s, b) := by
  refine ⟨_, by unfold SecSeg.label; rw [h], ?_⟩
  unfold readLabel
  rw [show ('s' :: (pctZero 3 s ++ ':' :: pctHex2 lower b)) = ['s'] ++ (pctZero 3 s ++ ([':'] ++ pctHex2 lower b)) from rfl, expect_append]
  simp only [Option.bind_eq_bind, Option.bind_some]
  rw [number_pctZero 3 s (t := [':'] ++ pctHex2 lower b) (noDigit_cons (by decide))]
  simp only [Option.bind_some]
  rw [expect_append]
  simp only [Option.bind_some]
  rw [valueOf_pctHex2]
  rfl

/-- **C89, the text with tracks.** -/
theorem C89_track_text (g : SecSeg) (i : Nat) (lower : Bool) {s b : Nat} (h : g.place i = .ok (s, b)) :
    ∃ t k r, g.trackLabel i lower = .ok t ∧ readTrackLabel t = some (k, r, b) ∧ 16 * k + r = s ∧ r < 16 := by
  refine ⟨_, s / 16, s % 16, by unfold SecSeg.trackLabel; rw [h], ?_, by omega, by omega⟩
  unfold readTrackLabel
  rw [show ('t' :: (pctZero 2 (s / 16 : Nat) ++ 's' :: (pctZero 2 (s % 16 : Nat) ++ ':' :: pctHex2 lower b))) =
    ['t'] ++ (pctZero 2 (s / 16 : Nat) ++ (['s'] ++ (pctZero 2 (s % 16 : Nat) ++ ([':'] ++ pctHex2 lower b)))) from rfl, expect_append]
  simp only [Option.bind_eq_bind, Option.bind_some]
  rw [number_pctZero 2 (s / 16) (t := ['s'] ++ (pctZero 2 (s % 16 : Nat) ++ ([':'] ++ pctHex2 lower b))) (noDigit_cons (by decide))]
  simp only [Option.bind_some]
  rw [expect_append]
  simp only [Option.bind_some]
  rw [number_pctZero 2 (s % 16) (t := [':'] ++ pctHex2 lower b) (noDigit_cons (by decide))]
  simp only [Option.bind_some]
  rw [expect_append]
  simp only [Option.bind_some]
  rw [valueOf_pctHex2]
  rfl

/-! ### the place -/

theorem locate_replicate (z : Nat) : ∀ (n i : Nat) (r : List Nat), i < n * z → locate (List.replicate n z ++ r) i = some (i / z, i % z) := by
  intro n
  induction n with
  | zero => intro i r h; rw [Nat.zero_mul] at h; omega
  | succ n ih =>
    intro i r h
    rw [Nat.succ_mul] at h
    rw [List.replicate_succ, List.cons_append, locate]
    by_cases hi : i < z
    · rw [if_pos hi, Nat.div_eq_of_lt hi, Nat.mod_eq_of_lt hi]
    · rw [if_neg hi, ih (i - z) r (by omega), Nat.mod_eq_sub_mod (by omega : z ≤ i)]
      have hz : 0 < z := by
        cases z with
        | zero => omega
        | succ z => omega
      rw [Nat.div_eq_sub_div hz (by omega : z ≤ i)]
      rfl

theorem locate_skip (z : Nat) : ∀ (n i : Nat) (r : List Nat), n * z ≤ i → locate (List.replicate n z ++ r) i = (locate r (i - n * z)).map fun p => (p.1 + n, p.2) := by
  intro n
  induction n with
  | zero => intro i r h; simp
  | succ n ih =>
    intro i r h
    rw [Nat.succ_mul] at h
    rw [List.replicate_succ, List.cons_append, locate, if_neg (by omega), ih (i - z) r (by omega), Nat.succ_mul, Option.map_map,
      show i - z - n * z = i - (n * z + z) by omega]
    rfl

theorem locate_lt (z : Nat) : ∀ (n i : Nat) p, locate (List.replicate n z) i = some p → i < n * z := by
  intro n
  induction n with
  | zero => intro i p h; cases h
  | succ n ih =>
    intro i p h
    rw [List.replicate_succ, locate] at h
    rw [Nat.succ_mul]
    by_cases hi : i < z
    · omega
    · rw [if_neg hi] at h
      cases hl : locate (List.replicate n z) (i - z) with
      | none => rw [hl] at h; cases h
      | some q => have := ih _ _ hl; omega

/-- **C89, any segment.** If the segment lies over sectors as its numbers say (some of one size first, then some of another), the label of a byte names the sector that
holds it. -/
theorem C89_place (g : SecSeg) (m i : Nat) {k b : Nat} (h : locate (List.replicate g.numBoot g.bootSize ++ List.replicate m g.pageSize) i = some (k, b)) :
    g.place i = .ok (g.first + k, b) := by
  unfold SecSeg.place
  simp only
  by_cases hi : g.numBoot * g.bootSize ≤ i
  · rw [if_pos hi]
    rw [locate_skip _ _ _ _ hi] at h
    have hm : i - g.numBoot * g.bootSize < m * g.pageSize := by
      cases hl : locate (List.replicate m g.pageSize) (i - g.numBoot * g.bootSize) with
      | none => rw [hl] at h; cases h
      | some q => exact locate_lt _ _ _ _ hl
    have := locate_replicate g.pageSize m _ [] hm
    rw [List.append_nil] at this
    rw [this] at h
    cases h
    have hz : g.pageSize ≠ 0 := fun h0 => by rw [h0, Nat.mul_zero] at hm; omega
    unfold pyDivmod
    rw [if_neg hz]
    simp only
    rw [Nat.add_comm]
  · rw [if_neg hi]
    rw [locate_replicate _ _ _ _ (by omega)] at h
    cases h
    have hz : g.bootSize ≠ 0 := fun h0 => by rw [h0, Nat.mul_zero] at hi; omega
    unfold pyDivmod
    rw [if_neg hz]
    simp only
    rw [Nat.add_comm]

/-- **C89, Atari disks.** On every disk that opens, the label of byte `i` of "Raw disk sectors" names the sector that holds the byte. -/
theorem C89_raw {b : Bytes} {h : AHeader} (ho : openHeader b = .ok h) (i : Nat) (lower : Bool) {k c : Nat} (hl : locate (sectorSizes h) i = some (k, c)) :
    ∃ t, h.rawSeg.label i lower = .ok t ∧ readLabel t = some (k + 1, c) := by
  have g := openHeader_geom ho
  have := C89_place h.rawSeg (h.maxSectors - h.numInitialSectors) i hl
  rw [show h.rawSeg.first + k = k + 1 by show h.startingSectorLabel + k = _; rw [g.label]; omega] at this
  exact C89_text _ _ _ this

/-- every byte of the disk has a sector -/
theorem locate_total (h : AHeader) (i : Nat)
    (hi : i < h.numInitialSectors * h.initialSectorSize + (h.maxSectors - h.numInitialSectors) * h.sectorSize) : ∃ p, locate (sectorSizes h) i = some p := by
  unfold sectorSizes
  by_cases hb : i < h.numInitialSectors * h.initialSectorSize
  · exact ⟨_, locate_replicate _ _ _ _ hb⟩
  · rw [locate_skip _ _ _ _ (by omega)]
    have := locate_replicate h.sectorSize (h.maxSectors - h.numInitialSectors) (i - h.numInitialSectors * h.initialSectorSize) [] (by omega)
    rw [List.append_nil] at this
    rw [this]
    exact ⟨_, rfl⟩

/-- **C89, reading.** On disks whose sectors are all of one size, the label names the sector and the byte as `get_pos` reads them: the sector begins at a place in the
image from which the byte is as far as the label says. -/
theorem C89_read {b : Bytes} {h : AHeader} (ho : openHeader b = .ok h) (hn : h.numInitialSectors = 0) (i : Nat) (hi : i < h.maxSectors * h.sectorSize) :
    ∃ s c pos, h.rawSeg.place i = .ok (s, c) ∧ h.getPos s = .ok (pos, h.sectorSize) ∧ c < h.sectorSize ∧ pos + c = h.headerOffset + i := by
  have g := openHeader_geom ho
  have hz := g.ssPos
  have h0 : ¬ i / h.sectorSize + 1 ≤ 0 := Nat.not_succ_le_zero _
  have hd : i / h.sectorSize < h.maxSectors := (Nat.div_lt_iff_lt_mul hz).mpr hi
  have hm := Nat.div_add_mod i h.sectorSize
  refine ⟨i / h.sectorSize + 1, i % h.sectorSize, i / h.sectorSize * h.sectorSize + h.headerOffset, ?_, ?_, Nat.mod_lt _ hz, ?_⟩
  · unfold SecSeg.place AHeader.rawSeg pyDivmod
    simp only [hn, Nat.zero_mul, Nat.zero_le, if_true, Nat.sub_zero, if_neg (show ¬ h.sectorSize = 0 by omega), g.label, Nat.add_zero]
  · unfold AHeader.getPos
    rw [show h.sectorIsValid (i / h.sectorSize + 1) = true by
      unfold AHeader.sectorIsValid; rw [g.label]; simp only [Bool.and_eq_true, decide_eq_true_eq]; exact ⟨Nat.le_add_left 1 _, Nat.succ_lt_succ hd⟩]
    simp only [hn, Bool.not_true, Bool.false_eq_true, if_false, if_neg h0, Nat.zero_mul, Nat.zero_add,
      Nat.add_sub_cancel, Nat.sub_zero]
  · rw [Nat.mul_comm] at hm; omega

/-- **C89, DOS 3.3.** The label of byte `i` of "Raw disk sectors" names track and sector of the 256 bytes that hold it; so do the labels of the VTOC. -/
theorem C89_dos33 (i : Nat) (lower : Bool) : (i < 143360 → ∃ t, rawSeg33.trackLabel i lower = .ok t ∧
      ∃ k r c, readTrackLabel t = some (k, r, c) ∧ k < 35 ∧ r < 16 ∧ c < 256 ∧ 256 * (16 * k + r) + c = i) ∧
    (i < 256 → ∃ t, vtocSeg33.trackLabel i lower = .ok t ∧ readTrackLabel t = some (17, 0, i)) := by
  refine ⟨fun hi => ?_, fun hi => ?_⟩
  · have hp : rawSeg33.place i = .ok (i / 256, i % 256) := by
      unfold SecSeg.place rawSeg33 pyDivmod
      simp
    obtain ⟨t, k, r, h1, h2, h3, h4⟩ := C89_track_text rawSeg33 i lower hp
    exact ⟨t, h1, k, r, _, h2, by omega, h4, by omega, by omega⟩
  · have hp : vtocSeg33.place i = .ok (272, i) := by
      unfold SecSeg.place vtocSeg33 pyDivmod
      simp [Nat.div_eq_of_lt hi, Nat.mod_eq_of_lt hi]
    obtain ⟨t, k, r, h1, h2, h3, h4⟩ := C89_track_text vtocSeg33 i lower hp
    refine ⟨t, h1, ?_⟩
    rw [h2, show k = 17 by omega, show r = 0 by omega]

/-- **C89, the bitmap of SpartaDOS disks.** -/
theorem C89_bitmap (h : AHeader) (first num i : Nat) (lower : Bool) {k c : Nat} (hl : locate (List.replicate num h.sectorSize) i = some (k, c)) :
    ∃ t, (h.bitmapSeg first num).label i lower = .ok t ∧ readLabel t = some (first + k, c) :=
  C89_text _ _ _ (C89_place (h.bitmapSeg first num) num i hl)

/-- **C89, VTOC and directory with sectors of 128 bytes.** -/
theorem C89_system (h : AHeader) (hs : h.sectorSize = 128) (first num i : Nat) (lower : Bool) {k c : Nat} (hl : locate (List.replicate num 128) i = some (k, c)) :
    ∃ t, (h.sysSeg first num).label i lower = .ok t ∧ readLabel t = some (first + k, c) := by
  refine C89_text _ _ _ (C89_place (h.sysSeg first num) num i (k := k) (b := c) ?_)
  show locate (List.replicate 3 128 ++ List.replicate num h.sectorSize) i = _
  rw [hs]
  have hi := locate_lt _ _ _ _ hl
  have h1 := locate_replicate 128 num i [] hi
  rw [List.append_nil] at h1
  rw [h1] at hl
  rw [← hl, List.replicate_append_replicate]
  have := locate_replicate 128 (3 + num) i [] (by omega)
  rwa [List.append_nil] at this

/-- **C89, refuted for double density.** With sectors of 256 bytes the labels of the VTOC and of the directory are wrong everywhere but in the first 128 bytes: the
segments are made as if the disk began there, with its three short sectors. -/
theorem C89_refuted_system (h : AHeader) (hs : h.sectorSize = 256) (first num i : Nat) (lower : Bool) {k c : Nat}
    (hl : locate (List.replicate num 256) i = some (k, c)) :
    (∃ t, (h.sysSeg first num).label i lower = .ok t ∧ readLabel t = some (first + k, c)) ↔ i < 128 := by
  have hi := locate_lt _ _ _ _ hl
  have h1 := locate_replicate 256 num i [] hi
  rw [List.append_nil, hl] at h1
  obtain ⟨rfl, rfl⟩ : k = i / 256 ∧ c = i % 256 := by cases h1; exact ⟨rfl, rfl⟩
  obtain ⟨s, d, hp, hsd⟩ : ∃ s d, (h.sysSeg first num).place i = .ok (s, d) ∧
      ((384 ≤ i ∧ s = (i - 384) / 256 + 3 + first ∧ d = (i - 384) % 256) ∨ (i < 384 ∧ s = i / 128 + first ∧ d = i % 128)) := by
    by_cases h3 : 384 ≤ i
    · refine ⟨_, _, ?_, .inl ⟨h3, rfl, rfl⟩⟩
      unfold SecSeg.place AHeader.sysSeg pyDivmod
      simp only [hs, if_pos (show 3 * 128 ≤ i by omega)]
      rfl
    · refine ⟨_, _, ?_, .inr ⟨by omega, rfl, rfl⟩⟩
      unfold SecSeg.place AHeader.sysSeg pyDivmod
      simp only [hs, if_neg (show ¬ 3 * 128 ≤ i by omega)]
      rfl
  obtain ⟨t, h2, h3⟩ := C89_text _ i lower hp
  constructor
  · rintro ⟨t', h4, h5⟩
    rw [h2] at h4
    cases h4
    rw [h3] at h5
    have h6 := Option.some.inj h5
    have e1 : s = first + i / 256 := congrArg Prod.fst h6
    omega
  · intro hlt
    refine ⟨t, h2, ?_⟩
    rw [h3, show s = first + i / 256 by omega, show d = i % 256 by omega]

/-! ### cases -/

/-- a disk with three short sectors: the last byte of sector 3 and the first of sector 4 -/
example : (match (⟨1, 720, 128, 3, 256⟩ : SecSeg).label 383 true, (⟨1, 720, 128, 3, 256⟩ : SecSeg).label 384 false with
    | .ok s, .ok t => some (s, t)
    | _, _ => none) = some ("s003:7f".toList, "s004:00".toList) := by decide +kernel

/-- byte 200 of a directory with sectors of 256 bytes is in sector 361 -/
example : (match ({ sectorSize := 256 } : AHeader).sysSeg 361 8 |>.label 200 true with
    | .ok t => some t
    | _ => none) = some "s362:48".toList ∧ locate (List.replicate 8 256) 200 = some (0, 200) := by decide +kernel

/-- track 17, sector 15 -/
example : (match rawSeg33.trackLabel 73692 false with
    | .ok t => some t
    | _ => none) = some "t17s15:DC".toList := by decide +kernel

end Atr
