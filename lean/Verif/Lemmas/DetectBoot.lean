import Verif.Lemmas.DetectSegs
import Verif.Lemmas.AtariMore
/-! # Volumes that differ in their boot sectors only -/
namespace Atr

theorem checkSize_offset {h h' : AHeader} {n : Nat} (hc : h.checkSize n = .ok h') : h'.headerOffset = h.headerOffset := by
  unfold AHeader.checkSize at hc
  simp only at hc
  repeat' split at hc
  all_goals first | (injection hc with hc; subst hc; rfl) | cases hc

/-- the magic number is all that tells an ATR file -/
theorem parse_magic {l l' : Bytes} (hl : l'.length = l.length) (h2 : l'.take 2 = l.take 2) (hp : AHeader.parse l = .error .invalidAtrHeader) :
    AHeader.parse l' = .error .invalidAtrHeader := by
  unfold AHeader.parse at hp ⊢
  split
  · rename_i a b _ _ _ _ _ _ _ _ _ _ _ _ _ _
    split at hp
    · rename_i c d _ _ _ _ _ _ _ _ _ _ _ _ _ _
      have : a = c ∧ b = d := by
        simp only [List.take_succ_cons, List.take_zero] at h2
        injection h2 with h3 h4
        injection h4 with h4 _
        exact ⟨h3, h4⟩
      rw [this.1, this.2]
      split at hp
      · rename_i hm
        rw [if_pos hm]
      · cases hp
    · rename_i hno
      exfalso
      match l, hl, hno with
      | [_, _, _, _, _, _, _, _, _, _, _, _, _, _, _, _], _, hno => exact hno _ _ _ _ _ _ _ _ _ _ _ _ _ _ _ _ rfl
  · rfl

theorem parse_cases (l : Bytes) : AHeader.parse l = .error .invalidAtrHeader ∨ ∃ h, AHeader.parse l = .ok h ∧ h.headerOffset = 16 := by
  unfold AHeader.parse
  split
  · split
    · exact Or.inl rfl
    · exact Or.inr ⟨_, rfl, rfl⟩
  · exact Or.inl rfl

theorem take_slice_zero {b : Bytes} {n k : Nat} (h : k ≤ n) : (slice b 0 n).take k = b.take k := by
  rw [slice_zero, List.take_take, Nat.min_eq_left h]

/-- the header does not depend on the boot sectors, but for the first two bytes of a file without ATR header -/
theorem openHeader_boot {b b' : Bytes} {h : AHeader} (ho : openHeader b = .ok h) (hl : b'.length = b.length)
    (hf : b'.take (max h.headerOffset 2) = b.take (max h.headerOffset 2)) : openHeader b' = .ok h := by
  rcases parse_cases (slice b 0 16) with hp | ⟨h0, hp, h16⟩
  · have hp' : AHeader.parse (slice b' 0 16) = .error .invalidAtrHeader := by
      refine parse_magic ?_ ?_ hp
      · rw [length_slice, length_slice, hl]
      · rw [take_slice_zero (by omega), take_slice_zero (by omega)]
        have := congrArg (List.take 2) hf
        rw [List.take_take, List.take_take, Nat.min_eq_left (by omega)] at this
        exact this
    unfold openHeader readHeader at ho ⊢
    rw [hp] at ho
    rw [hp', hl]
    exact ho
  · have : h.headerOffset = 16 := by
      unfold openHeader readHeader at ho
      rw [hp] at ho
      rw [checkSize_offset ho, h16]
    rw [this] at hf
    rw [← ho]
    exact openHeader_congr hl (by rw [slice_zero, slice_zero]; exact hf)

theorem slice_of_drop {b b' : Bytes} {k i j : Nat} (hd : b'.drop k = b.drop k) (hi : k ≤ i) : slice b' i j = slice b i j := by
  have key : ∀ x : Bytes, slice x i j = slice (x.drop k) (i - k) (j - k) := by
    intro x
    unfold slice
    rw [List.drop_take, List.drop_take, List.drop_drop, show k + (i - k) = i by omega, show j - k - (i - k) = j - i by omega]
  rw [key b', key b, hd]

theorem sec_of_drop {h : AHeader} {b b' : Bytes} {s n : Nat} (g : h.Geom n) (hd : b'.drop (bootEnd h) = b.drop (bootEnd h)) (hs : 4 ≤ s) (hm : s ≤ h.maxSectors) :
    sec h b' s = sec h b s := by
  have d := dataSec_big g hs hm
  have := getPos_after_boot g hs (AHeader.getPos_data g d.1 d.2)
  exact slice_of_drop hd this

/-- **boot sectors do not matter to the files**: the same volume with other boot sectors -/
theorem mounted_boot {m : AImg} {ds} (hm : Mounted m ds) {b' : Bytes} (hl : b'.length = m.bytes.length)
    (hf : b'.take (max m.hdr.headerOffset 2) = m.bytes.take (max m.hdr.headerOffset 2))
    (hd : b'.drop (bootEnd m.hdr) = m.bytes.drop (bootEnd m.hdr)) :
    ∃ m', Mounted m' ds ∧ m'.hdr = m.hdr ∧ m'.bytes = b' ∧ m'.listing = m.listing := by
  obtain ⟨c, e⟩ := mounted_iff.mp hm
  have g := c.geom
  have hx := c.size
  have hsec : ∀ s, 4 ≤ s → s ≤ m.hdr.maxSectors → sec m.hdr b' s = sec m.hdr m.bytes s := fun s h1 h2 => sec_of_drop g hd h1 h2
  have h360 := hsec 360 (by omega) (by omega)
  have hraw : rawEntries m.hdr b' = rawEntries m.hdr m.bytes := by
    have d := dataSec_big g (s := 361) (by omega) (by omega)
    unfold rawEntries
    rw [slice_of_drop hd (getPos_after_boot g (by omega) (AHeader.getPos_data g d.1 d.2))]
  obtain ⟨c', hg⟩ := c.same hl (openHeader_boot c.opens hl hf) (by rw [hraw]; exact c.dir) (by rw [hraw]; exact c.term)
    (by rw [h360]) (fun s => by unfold IsFree freeMap; rw [h360]) (fun s hu _ => hsec s hu.1 hu.2.1)
  refine ⟨mountRec m.hdr b' ds, mounted_mountRec c', rfl, rfl, ?_⟩
  have e2 : m.files = ds.filter (·.inUse) := (congrArg AImg.files e).trans rfl
  unfold AImg.listing
  rw [e2]
  show (ds.filter (·.inUse)).map _ = _
  apply List.map_congr_left
  intro d hdm
  have := List.mem_filter.mp hdm
  show (d.filename, d.getFile m.hdr b') = (d.filename, d.getFile m.hdr m.bytes)
  rw [hg d this.1 (by simpa using this.2)]

end Atr
