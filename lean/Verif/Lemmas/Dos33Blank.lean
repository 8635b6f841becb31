import Verif.Lemmas.Dos33Ops
/-! # The template disk `/repo/atrcopy/templates/dos33.dsk` is consistent -/
namespace Atr

/-- sector 272 of `templates/dos33.dsk`: catalog at track 17 sector 15, 122 pairs per list sector, 35 tracks of 16 sectors,
tracks 3-16 and 18-34 free -/
def vtocBlank33 : Bytes :=
  [4, 0x11, 0x0f, 3, 0, 0, 1] ++ List.replicate 32 0 ++ [0x7a] ++ List.replicate 8 0 ++ [0x0b, 0xff, 0, 0, 0x23, 0x10, 0, 1] ++
  List.replicate 12 0 ++ (List.replicate 14 [0xff, 0xff, 0, 0]).flatten ++ [0, 0, 0, 0] ++
  (List.replicate 17 [0xff, 0xff, 0, 0]).flatten ++ List.replicate 60 0

/-- catalog sectors of the template: track 17, sectors 15 down to 1 -/
def catBlank33 : List Nat := [287, 286, 285, 284, 283, 282, 281, 280, 279, 278, 277, 276, 275, 274, 273]

/-- a catalog sector without entries that links to sector `n` -/
def emptyCat33 (n : Nat) : Bytes := [0] ++ tsBytes n ++ List.replicate 253 0

/-- An image like `templates/dos33.dsk`: what is in the sectors of the operating system and in the data sectors does not
matter. -/
structure Template33 (b : Bytes) : Prop where
  size : b.length = 143360
  boot : slice (sec33 b 0) 0 4 ≠ [1, 56, 176, 3]
  vtoc : sec33 b 272 = vtocBlank33
  cat : ∀ (j n : Nat), catBlank33[j]? = some n → sec33 b n = emptyCat33 (catBlank33.getD (j + 1) 0)

theorem vtocBlank33_length : vtocBlank33.length = 256 := by decide +kernel

theorem vtocBlank33_free : ∀ s, s < 800 → (256 * (vtocBlank33.getD (0x38 + 4 * (s / 16)) 0).toNat +
    (vtocBlank33.getD (0x39 + 4 * (s / 16)) 0).toNat).testBit (s % 16) = decide ((48 ≤ s ∧ s < 272) ∨ (288 ≤ s ∧ s < 560)) := by
  decide +kernel

theorem template33_free {b : Bytes} (t : Template33 b) (s : Nat) : IsFree33 b s ↔ (48 ≤ s ∧ s < 272) ∨ (288 ≤ s ∧ s < 560) := by
  unfold IsFree33
  rw [t.vtoc]
  by_cases hs : s < 800
  · rw [vtocBlank33_free s hs]; simp [hs]
  · constructor
    · intro h; exact absurd h.1 hs
    · omega

theorem template33_pool {b : Bytes} (t : Template33 b) : (freePool33 b).length = 496 := by
  have : freePool33 b = (List.range 800).filter fun s => decide ((48 ≤ s ∧ s < 272) ∨ (288 ≤ s ∧ s < 560)) := by
    unfold freePool33
    exact List.filter_congr fun s _ => decide_eq_decide.mpr (template33_free t s)
  rw [this]
  decide +kernel

theorem emptyCat33_entries (n : Nat) : ∀ e ∈ catEntries (emptyCat33 n), UnusedSlot e := by
  have : (emptyCat33 n).drop 11 = List.replicate 245 0 := by
    show (List.replicate 253 (0 : UInt8)).drop 8 = _
    rw [List.drop_replicate]
  intro e he
  unfold catEntries at he
  rw [this] at he
  have : ∀ x ∈ chunks 35 (List.replicate 245 (0 : UInt8)), x = List.replicate 35 0 := by decide +kernel
  rw [this e he]
  exact unused_zero

theorem emptyCat33_link {n : Nat} (h : n < 4096) : linkOf (emptyCat33 n) = n := by
  have : linkOf (emptyCat33 n) = secOfTS (UInt8.ofNat (n / 16)) (UInt8.ofNat (n % 16)) := rfl
  rw [this, secOfTS_ofNat h]

theorem template33_consistent {b : Bytes} (t : Template33 b) : Consistent33 b catBlank33 [] := by
  have hun : ∀ e ∈ catRaw b catBlank33, UnusedSlot e := by
    intro e he
    obtain ⟨n, hn, he⟩ := List.mem_flatMap.mp he
    obtain ⟨j, hj⟩ := List.getElem?_of_mem hn
    rw [t.cat j n hj] at he
    exact emptyCat33_entries _ e he
  refine { size := t.size, boot := t.boot, tracks := ?_, sectors := ?_, pairs := ?_, vtoc := ?_, cat := ?_, cat272 := by decide, catNe := by decide,
           dir := scanCat_unused _ 0 hun, term := ?_, room := by simp, sane := by simp, noText := by simp, names := by simp
           files := by simp, disjoint := by simp, free := ?_, first := by simp }
  · rw [t.vtoc]; decide +kernel
  · rw [t.vtoc]; decide +kernel
  · rw [t.vtoc]; decide +kernel
  · rw [t.vtoc]; decide +kernel
  · have : linkOf (sec33 b 272) = 287 := by rw [t.vtoc]; decide +kernel
    rw [this]
    refine chain_of_links catBlank33 (by decide) ?_
    intro j n hj
    rw [t.cat j n hj, emptyCat33_link]
    have := getD_lt_560 (l := catBlank33) (by decide) (j + 1)
    omega
  · intro e he
    exact hun e (List.mem_of_mem_drop he)
  · intro s hs
    have := (template33_free t s).mp hs
    refine ⟨by omega, by omega, by omega, ?_⟩
    intro hc
    have : ∀ x ∈ catBlank33, 273 ≤ x ∧ x ≤ 287 := by decide
    have := this s hc
    omega

/-! ### an instance -/

/-- contents of the sectors of the instance: everything but the VTOC and the catalog is zero -/
def blankSec33 (s : Nat) : Bytes :=
  if s = 272 then vtocBlank33
  else if 274 ≤ s ∧ s ≤ 287 then emptyCat33 (s - 1)
  else List.replicate 256 0

def blank33 : Bytes := (List.range 560).flatMap blankSec33

theorem blankSec33_length (s : Nat) : (blankSec33 s).length = 256 := by
  unfold blankSec33
  split
  · exact vtocBlank33_length
  · split
    · unfold emptyCat33 tsBytes
      rw [List.length_append, List.length_replicate]
      rfl
    · exact List.length_replicate

theorem drop_flatMap_const {f : Nat → Bytes} (hf : ∀ s, (f s).length = 256) : ∀ (l : List Nat) (k : Nat),
    (l.flatMap f).drop (256 * k) = (l.drop k).flatMap f := by
  intro l
  induction l with
  | nil => intro k; simp
  | cons a l ih =>
    intro k
    cases k with
    | zero => rfl
    | succ k =>
      rw [List.flatMap_cons, List.drop_append, List.drop_eq_nil_of_le (by rw [hf]; omega), hf, List.nil_append,
        show 256 * (k + 1) - 256 = 256 * k by omega, ih]
      rfl

theorem sec33_flatMap {f : Nat → Bytes} (hf : ∀ s, (f s).length = 256) {n s : Nat} (hs : s < n) :
    sec33 ((List.range n).flatMap f) s = f s := by
  unfold sec33 slice
  rw [List.drop_take, drop_flatMap_const hf, List.drop_eq_getElem_cons (by simpa using hs), List.flatMap_cons, List.getElem_range,
    show 256 * s + 256 - 256 * s = 256 by omega, List.take_append, List.take_of_length_le (by rw [hf]; omega), hf]
  simp

theorem length_flatMap_const {f : Nat → Bytes} (hf : ∀ s, (f s).length = 256) : ∀ l : List Nat, (l.flatMap f).length = 256 * l.length := by
  intro l
  induction l with
  | nil => rfl
  | cons a l ih => rw [List.flatMap_cons, List.length_append, hf, ih, List.length_cons]; omega

theorem blank33_template : Template33 blank33 := by
  have hs : ∀ s, s < 560 → sec33 blank33 s = blankSec33 s := fun s h => sec33_flatMap blankSec33_length h
  refine ⟨?_, ?_, ?_, ?_⟩
  · unfold blank33
    rw [length_flatMap_const blankSec33_length, List.length_range]
  · rw [hs 0 (by omega)]; decide +kernel
  · rw [hs 272 (by omega)]; rfl
  · intro j n hj
    have hall : ∀ x ∈ catBlank33, 273 ≤ x ∧ x ≤ 287 := by decide
    have hn := hall n (List.mem_of_getElem? hj)
    have hnext : ∀ i, i < 15 → catBlank33[i]? = some (287 - i) ∧ catBlank33.getD (i + 1) 0 = (if i = 14 then 0 else 286 - i) := by decide
    have hj15 : j < 15 := (List.getElem?_eq_some_iff.mp hj).1
    obtain ⟨h1, h2⟩ := hnext j hj15
    rw [hj] at h1
    injection h1 with h1
    rw [hs n (by omega), h2]
    by_cases h : j = 14
    · subst h; subst h1; decide +kernel
    · rw [if_neg h, h1]
      unfold blankSec33
      rw [if_neg (by omega), if_pos (by omega)]
      congr 1
      omega

theorem mount33_bytes (b : Bytes) (ds : List DDirent) : (mount33 b ds).bytes = b := rfl

theorem mounted_blank33 : Mounted33 (mount33 blank33 []) catBlank33 [] := mounted33_mount (template33_consistent blank33_template)

end Atr
