import Verif.Model.Images
import Verif.Spec.SpartaShred
import Verif.Lemmas.Detect
import Verif.Lemmas.DetectSegs
import Verif.Lemmas.Dos33Inv
import Verif.Lemmas.AtariMore
/-!
# Lemmas about filling the free sectors, byte by byte, and about the bitmap
-/
namespace Atr

theorem getElem?_fillSlice (a : Bytes) (i j k : Nat) (x : UInt8) (hij : i ≤ j) (hj : j ≤ a.length) :
    (fillSlice a i j x)[k]? = if i ≤ k ∧ k < j then some x else a[k]? := by
  unfold fillSlice
  rw [getElem?_splice _ _ _ _ (by rw [List.length_replicate]; omega), List.length_replicate]
  by_cases h1 : k < i
  · rw [if_pos h1, if_neg (by omega)]
  · rw [if_neg h1]
    by_cases h2 : k < j
    · rw [if_pos (by omega), if_pos (by omega), List.getElem?_replicate, if_pos (by omega)]
    · rw [if_neg (by omega), if_neg (by omega)]

/-- the loop of `shred`, byte by byte -/
theorem shredLoop_bytes {h : AHeader} {n : Nat} (g : h.Geom n) (fill : UInt8) (map : List Bool) : ∀ (is : List Nat) (m : AImg),
    m.hdr = h → m.bytes.length = n → (∀ i ∈ is, 1 ≤ i ∧ i ≤ h.maxSectors ∧ i < map.length) →
    ∃ b', AImg.shredLoop fill map is m = (.ok (), { m with bytes := b' }) ∧ b'.length = n ∧
      (∀ k, (∃ s ∈ is, map[s]? = some true ∧ InSector h s k) → b'[k]? = some fill) ∧
      (∀ k, (¬ ∃ s ∈ is, map[s]? = some true ∧ InSector h s k) → b'[k]? = m.bytes[k]?) := by
  intro is
  induction is with
  | nil => intro m hm hn _; exact ⟨m.bytes, rfl, hn, by simp, by simp⟩
  | cons i is ih =>
    intro m hm hn hr
    obtain ⟨r1, r2, r3⟩ := hr i (by simp)
    obtain ⟨p, c, hp⟩ := AHeader.getPos_isOk g r1 r2
    have hfit := getPos_fits g hp
    subst hm
    unfold AImg.shredLoop
    rw [hp]; simp only
    cases hmap : map[i]? with
    | none => rw [List.getElem?_eq_none_iff] at hmap; omega
    | some v =>
      cases v with
      | false =>
        simp only
        obtain ⟨b', q1, q2, q3, q4⟩ := ih m rfl hn (fun j hj => hr j (by simp [hj]))
        refine ⟨b', q1, q2, ?_, ?_⟩
        · rintro k ⟨s, hs, h1, h2⟩
          rcases List.mem_cons.mp hs with rfl | hs
          · rw [hmap] at h1; cases h1
          · exact q3 k ⟨s, hs, h1, h2⟩
        · intro k hk
          exact q4 k (fun ⟨s, hs, h1, h2⟩ => hk ⟨s, by simp [hs], h1, h2⟩)
      | true =>
        simp only
        have hl : (fillSlice m.bytes p (p + c) fill).length = n := by rw [length_fillSlice _ _ _ _ (by omega), hn]
        obtain ⟨b', q1, q2, q3, q4⟩ := ih { m with bytes := fillSlice m.bytes p (p + c) fill } rfl hl (fun j hj => hr j (by simp [hj]))
        refine ⟨b', q1, q2, ?_, ?_⟩
        · rintro k ⟨s, hs, h1, h2⟩
          by_cases hin : ∃ s ∈ is, map[s]? = some true ∧ InSector m.hdr s k
          · exact q3 k hin
          · rw [q4 k hin]
            simp only
            rcases List.mem_cons.mp hs with rfl | hs
            · obtain ⟨p', c', e, h3, h4⟩ := h2
              rw [hp] at e; cases e
              rw [getElem?_fillSlice _ _ _ _ _ (by omega) (by omega), if_pos ⟨h3, h4⟩]
            · exact absurd ⟨s, hs, h1, h2⟩ hin
        · intro k hk
          rw [q4 k (fun ⟨s, hs, h1, h2⟩ => hk ⟨s, by simp [hs], h1, h2⟩)]
          simp only
          rw [getElem?_fillSlice _ _ _ _ _ (by omega) (by omega), if_neg]
          intro hh
          exact hk ⟨i, by simp, hmap, p, c, hp, hh.1, hh.2⟩

/-- a sector beyond the map -/
theorem shredLoop_beyond {h : AHeader} {n : Nat} (g : h.Geom n) (fill : UInt8) (map : List Bool) : ∀ (is : List Nat) (m : AImg),
    m.hdr = h → (∀ i ∈ is, 1 ≤ i ∧ i ≤ h.maxSectors) → (∃ i ∈ is, map.length ≤ i) →
    ∃ m', AImg.shredLoop fill map is m = (.error .indexError, m') := by
  intro is
  induction is with
  | nil => rintro m _ _ ⟨i, hi, _⟩; cases hi
  | cons i is ih =>
    rintro m hm hr ⟨j, hj, hjm⟩
    obtain ⟨p, c, hp⟩ := AHeader.getPos_isOk g (hr i (by simp)).1 (hr i (by simp)).2
    subst hm
    unfold AImg.shredLoop
    rw [hp]; simp only
    cases hmap : map[i]? with
    | none => exact ⟨m, rfl⟩
    | some v =>
      have hj : j ∈ is := by
        rcases List.mem_cons.mp hj with rfl | hj
        · rw [List.getElem?_eq_none_iff.mpr hjm] at hmap; cases hmap
        · exact hj
      cases v with
      | false => exact ih m rfl (fun x hx => hr x (by simp [hx])) ⟨j, hj, hjm⟩
      | true => exact ih _ rfl (fun x hx => hr x (by simp [hx])) ⟨j, hj, hjm⟩

/-- contiguous sectors -/
theorem slice_sectorBytes {h : AHeader} {b : Bytes} (g : h.Geom b.length) : ∀ (k s : Nat), h.numInitialSectors < s → s + k ≤ h.maxSectors + 1 →
    slice b (h.dpos s) (h.dpos s + k * h.sectorSize) = (List.range' s k).flatMap (sectorBytes h b) := by
  intro k
  induction k with
  | zero => intro s _ _; simp [slice]
  | succ k ih =>
    intro s h1 h2
    rw [List.range'_succ, List.flatMap_cons, sectorBytes_eq (AHeader.getPos_data g h1 (by omega)), ← ih (s + 1) (by omega) (by omega), dpos_succ h s h1]
    have hfit := getPos_fits g (AHeader.getPos_data g h1 (by omega))
    rw [show h.dpos s + h.sectorSize + k * h.sectorSize = h.dpos s + (k + 1) * h.sectorSize by rw [Nat.add_mul]; omega]
    rw [slice_append_slice b _ _ _ (by omega) (by rw [Nat.add_mul]; omega) (by omega)]

end Atr
