import Verif.Model.AtariHeader
import Verif.Lemmas.Basic
/-! # Sector geometry of ATR/XFD headers -/
namespace Atr

/-- Facts about every header that `openHeader` accepts for an image of `n` bytes. -/
structure AHeader.Geom (h : AHeader) (n : Nat) : Prop where
  label : h.startingSectorLabel = 1
  ssPos : 0 < h.sectorSize
  inits : (h.numInitialSectors = 0 ∧ h.initialSectorSize = 0) ∨
    (h.numInitialSectors = 3 ∧ h.initialSectorSize = 128 ∧ h.sectorSize = 256 ∧ h.imageSize = 183936)
  payload : h.payloadBytes = (h.sectorSize : Int) - 3
  max : h.maxSectors = (h.imageSize - h.initialSectorSize * h.numInitialSectors) / h.sectorSize + h.numInitialSectors
  fit : h.headerOffset + h.imageSize ≤ n

theorem readHeader_props (b : Bytes) : (readHeader b).startingSectorLabel = 1 ∧ (readHeader b).initialSectorSize = 0 ∧
    (readHeader b).numInitialSectors = 0 ∧ (readHeader b).headerOffset ≤ b.length := by
  unfold readHeader
  cases hp : AHeader.parse (slice b 0 16) with
  | error e => simp
  | ok h =>
    have hl : (slice b 0 16).length = 16 := by
      generalize slice b 0 16 = l at hp
      unfold AHeader.parse at hp
      split at hp
      · rfl
      · simp at hp
    have : 16 ≤ b.length := by rw [length_slice] at hl; omega
    generalize slice b 0 16 = l at hp
    unfold AHeader.parse at hp
    split at hp
    · split at hp
      · simp at hp
      · simp at hp; subst hp; simpa using this
    · simp at hp

theorem checkSize_geom (h0 h : AHeader) (size n : Nat) (hl : h0.startingSectorLabel = 1)
    (hi : h0.initialSectorSize = 0) (hn : h0.numInitialSectors = 0) (hs : h0.headerOffset + size ≤ n)
    (hc : h0.checkSize size = .ok h) : h.Geom n := by
  unfold AHeader.checkSize at hc
  by_cases c1 : size = 92160 ∨ size = 92176
  · simp [c1] at hc; subst hc
    constructor <;> simp_all <;> omega
  by_cases c2 : size = 184320 ∨ size = 184336
  · simp [c1, c2] at hc; subst hc
    constructor <;> simp_all <;> omega
  by_cases c3 : size = 183936 ∨ size = 183952
  · simp [c1, c2, c3] at hc; subst hc
    constructor <;> simp_all <;> omega
  simp [c1, c2, c3] at hc
  split at hc
  · simp at hc
  · simp at hc; subst hc
    constructor <;> simp_all <;> omega

theorem openHeader_geom {b : Bytes} {h : AHeader} (ho : openHeader b = .ok h) : h.Geom b.length := by
  obtain ⟨h1, h2, h3, h4⟩ := readHeader_props b
  exact checkSize_geom _ _ _ _ h1 h2 h3 (by omega) ho

theorem slice_replicate {α} (n : Nat) (x : α) (i j : Nat) : slice (List.replicate n x) i j = List.replicate (min j n - i) x := by
  simp [slice]
theorem openHeader_zeros (n : Nat) : openHeader (List.replicate n 0) = AHeader.checkSize {} n := by
  have : AHeader.parse (slice (List.replicate n 0) 0 16) = .error .invalidAtrHeader := by
    rw [slice_replicate]
    have : ∀ k, k < 17 → AHeader.parse (List.replicate k 0) = .error .invalidAtrHeader := by decide
    exact this _ (by omega)
  unfold openHeader readHeader
  rw [this]; simp
namespace AHeader

theorem sectorIsValid_iff {h : AHeader} {n : Nat} (g : h.Geom n) (s : Nat) :
    h.sectorIsValid s = true ↔ 1 ≤ s ∧ s ≤ h.maxSectors := by
  simp [sectorIsValid, g.label]; omega

/-- position of an ordinary (not initial) sector -/
def dpos (h : AHeader) (s : Nat) : Nat :=
  h.numInitialSectors * h.initialSectorSize + (s - 1 - h.numInitialSectors) * h.sectorSize + h.headerOffset

theorem getPos_data {h : AHeader} {n : Nat} (g : h.Geom n) {s : Nat} (h1 : h.numInitialSectors < s)
    (h2 : s ≤ h.maxSectors) : h.getPos s = .ok (h.dpos s, h.sectorSize) := by
  have : h.sectorIsValid s = true := (sectorIsValid_iff g s).mpr ⟨by omega, h2⟩
  unfold getPos
  simp [this, dpos, show ¬ s ≤ h.numInitialSectors by omega]

theorem getPos_ok {h : AHeader} {n : Nat} (g : h.Geom n) {s p k : Nat} (hp : h.getPos s = .ok (p, k)) :
    1 ≤ s ∧ s ≤ h.maxSectors ∧
      ((h.numInitialSectors < s ∧ p = h.dpos s ∧ k = h.sectorSize) ∨
       (s ≤ h.numInitialSectors ∧ h.numInitialSectors = 3 ∧ k = 128 ∧ p = 3 * (s - 1) + h.headerOffset)) := by
  unfold getPos at hp
  cases hv : h.sectorIsValid s with
  | false => simp [hv] at hp
  | true =>
    rw [sectorIsValid_iff g] at hv
    refine ⟨hv.1, hv.2, ?_⟩
    simp only [show h.sectorIsValid s = true from (sectorIsValid_iff g s).mpr hv, Bool.not_true] at hp
    have gi := g.inits
    by_cases hs : s ≤ h.numInitialSectors
    · right
      simp [hs] at hp
      rcases gi with gi | gi
      · omega
      · rw [gi.1, gi.2.1] at hp
        omega
    · left
      simp [hs] at hp
      simp only [dpos]; omega

theorem getPos_isOk {h : AHeader} {n : Nat} (g : h.Geom n) {s : Nat} (h1 : 1 ≤ s) (h2 : s ≤ h.maxSectors) :
    ∃ p k, h.getPos s = .ok (p, k) := by
  have hv : h.sectorIsValid s = true := (sectorIsValid_iff g s).mpr ⟨h1, h2⟩
  unfold getPos
  simp only [hv, Bool.not_true, Bool.false_eq_true, if_false]
  exact ⟨_, _, rfl⟩

theorem dpos_disjoint {h : AHeader} {s t : Nat} (hs : h.numInitialSectors < s) (ht : h.numInitialSectors < t)
    (hne : s ≠ t) : h.dpos s + h.sectorSize ≤ h.dpos t ∨ h.dpos t + h.sectorSize ≤ h.dpos s := by
  unfold dpos
  rcases Nat.lt_or_gt_of_ne hne with h1 | h1
  · left
    have : (s - 1 - h.numInitialSectors) + 1 ≤ t - 1 - h.numInitialSectors := by omega
    have := Nat.mul_le_mul_right h.sectorSize this
    rw [Nat.add_mul, Nat.one_mul] at this
    omega
  · right
    have : (t - 1 - h.numInitialSectors) + 1 ≤ s - 1 - h.numInitialSectors := by omega
    have := Nat.mul_le_mul_right h.sectorSize this
    rw [Nat.add_mul, Nat.one_mul] at this
    omega

theorem dpos_fit {h : AHeader} {n : Nat} (g : h.Geom n) {s : Nat} (h1 : h.numInitialSectors < s)
    (h2 : s ≤ h.maxSectors) : h.dpos s + h.sectorSize ≤ h.headerOffset + h.imageSize := by
  have hm := g.max
  have : (s - 1 - h.numInitialSectors) + 1 ≤
      (h.imageSize - h.initialSectorSize * h.numInitialSectors) / h.sectorSize := by omega
  have := Nat.mul_le_mul_right h.sectorSize this
  have h3 := Nat.div_mul_le_self (h.imageSize - h.initialSectorSize * h.numInitialSectors) h.sectorSize
  rw [Nat.add_mul, Nat.one_mul] at this
  unfold dpos
  rcases g.inits with gi | gi
  · simp only [gi.1, gi.2] at *; omega
  · simp only [gi.1, gi.2.1, gi.2.2.2] at *; omega

end AHeader
end Atr
