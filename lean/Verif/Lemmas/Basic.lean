import Verif.Model.Py
/-! # Lemmas about the Python primitives -/
namespace Atr

theorem length_slice {α} (a : List α) (i j : Nat) : (slice a i j).length = min j a.length - i := by
  simp [slice]

theorem getElem?_slice {α} (a : List α) (i j k : Nat) :
    (slice a i j)[k]? = if i + k < j then a[i + k]? else none := by
  simp [slice, List.getElem?_take]

theorem length_splice {α} (a v : List α) (i : Nat) (h : i + v.length ≤ a.length) :
    (splice a i v).length = a.length := by
  simp [splice]; omega

theorem getElem?_splice {α} (a v : List α) (i k : Nat) (h : i + v.length ≤ a.length) :
    (splice a i v)[k]? = if k < i then a[k]? else if k < i + v.length then v[k - i]? else a[k]? := by
  unfold splice
  rw [List.append_assoc, List.getElem?_append]
  have hi : (a.take i).length = i := by simp; omega
  rw [hi]
  split
  · rw [List.getElem?_take]; simp [*]
  · rw [List.getElem?_append]
    by_cases hk : k < i + v.length
    · rw [if_pos (by omega), if_pos hk]
    · rw [if_neg (by omega), if_neg hk, List.getElem?_drop]
      congr 1; omega

theorem slice_splice_disjoint {α} (a v : List α) (i j k : Nat) (h : i + v.length ≤ a.length)
    (hd : k ≤ i ∨ i + v.length ≤ j) : slice (splice a i v) j k = slice a j k := by
  apply List.ext_getElem?
  intro n
  rw [getElem?_slice, getElem?_slice, getElem?_splice _ _ _ _ h]
  grind

theorem slice_splice_same {α} (a v : List α) (i : Nat) (h : i + v.length ≤ a.length) :
    slice (splice a i v) i (i + v.length) = v := by
  apply List.ext_getElem?
  intro n
  rw [getElem?_slice, getElem?_splice _ _ _ _ h]
  grind

theorem splice_slice_self {α} (a : List α) (i j : Nat) (h : i ≤ j) (hj : j ≤ a.length) :
    splice a i (slice a i j) = a := by
  apply List.ext_getElem?
  intro n
  rw [getElem?_splice _ _ _ _ (by rw [length_slice]; omega), length_slice]
  grind [getElem?_slice]

theorem slice_slice {α} (a : List α) (i j k l : Nat) : slice (slice a i j) k l = slice a (i + k) (min j (i + l)) := by
  apply List.ext_getElem?
  intro n
  simp only [getElem?_slice]
  grind

theorem slice_all {α} (a : List α) (n : Nat) (h : a.length ≤ n) : slice a 0 n = a := by
  simp [slice, List.take_of_length_le h]

theorem slice_append_slice {α} (a : List α) (i j k : Nat) (hij : i ≤ j) (hjk : j ≤ k) (hj : j ≤ a.length) :
    slice a i j ++ slice a j k = slice a i k := by
  apply List.ext_getElem?
  intro n
  rw [List.getElem?_append, length_slice]
  simp only [getElem?_slice]
  grind

theorem length_fillSlice (a : Bytes) (i j : Nat) (x : UInt8) (hj : j ≤ a.length) :
    (fillSlice a i j x).length = a.length := by
  unfold fillSlice
  by_cases h : i ≤ a.length
  · rw [length_splice]; simp; omega
  · simp [splice]; omega

/-! ### chunks -/

theorem chunksFuel_nil {α} (n f : Nat) : chunksFuel n f ([] : List α) = [] := by
  cases f <;> simp [chunksFuel]

theorem chunksFuel_succ {α} (n f : Nat) (l : List α) (h : l ≠ []) :
    chunksFuel n (f + 1) l = l.take n :: chunksFuel n f (l.drop n) := by
  cases l with
  | nil => exact absurd rfl h
  | cons a l => simp [chunksFuel]

theorem chunksFuel_enough {α} (n : Nat) (hn : 0 < n) : ∀ (f g : Nat) (l : List α), l.length ≤ f → l.length ≤ g →
    chunksFuel n f l = chunksFuel n g l := by
  intro f
  induction f with
  | zero =>
    intro g l hl _
    have : l = [] := List.length_eq_zero_iff.mp (by omega)
    subst this; simp [chunksFuel_nil]
  | succ f ih =>
    intro g l hf hg
    by_cases h : l = []
    · subst h; simp [chunksFuel_nil]
    · cases g with
      | zero => exact absurd (List.length_eq_zero_iff.mp (by omega)) h
      | succ g =>
        rw [chunksFuel_succ _ _ _ h, chunksFuel_succ _ _ _ h]
        have : 0 < l.length := List.length_pos_iff.mpr h
        rw [ih g (l.drop n) (by simp; omega) (by simp; omega)]

@[simp] theorem chunks_nil {α} (n : Nat) : chunks n ([] : List α) = [] := by simp [chunks, chunksFuel]

theorem chunks_cons {α} (n : Nat) (hn : 0 < n) (l : List α) (h : l ≠ []) :
    chunks n l = l.take n :: chunks n (l.drop n) := by
  have hp : 0 < l.length := List.length_pos_iff.mpr h
  unfold chunks
  obtain ⟨k, hk⟩ : ∃ k, l.length = k + 1 := ⟨l.length - 1, by omega⟩
  rw [hk, chunksFuel_succ _ _ _ h, chunksFuel_enough n hn k (l.drop n).length _ (by simp; omega) (Nat.le_refl _)]

/-- induction principle following `chunks` -/
theorem chunks_induction {α} (n : Nat) (hn : 0 < n) {P : List α → Prop} (nil : P [])
    (step : ∀ l, l ≠ [] → P (l.drop n) → P l) (l : List α) : P l := by
  suffices h : ∀ k, ∀ l : List α, l.length ≤ k → P l from h _ l (Nat.le_refl _)
  intro k
  induction k with
  | zero => intro l hl; rw [List.length_eq_zero_iff.mp (Nat.le_zero.mp hl)]; exact nil
  | succ k ih =>
    intro l hl
    by_cases h : l = []
    · subst h; exact nil
    · exact step l h (ih _ (by have := List.length_pos_iff.mpr h; simp; omega))

theorem chunks_flatten {α} (n : Nat) (hn : 0 < n) (l : List α) : (chunks n l).flatten = l := by
  induction l using chunks_induction n hn with
  | nil => simp
  | step l h ih => rw [chunks_cons n hn l h, List.flatten_cons, ih, List.take_append_drop]

theorem chunks_append {α} (n : Nat) (hn : 0 < n) (a l : List α) (ha : a.length = n) :
    chunks n (a ++ l) = a :: chunks n l := by
  rw [chunks_cons n hn _ (by intro h; simp at h; rw [h.1] at ha; simp at ha; omega)]
  simp [← ha]

theorem chunks_flatten_append {α} (n : Nat) (hn : 0 < n) (ls : List (List α)) (l : List α)
    (h : ∀ x ∈ ls, x.length = n) : chunks n (ls.flatten ++ l) = ls ++ chunks n l := by
  induction ls with
  | nil => simp
  | cons a ls ih =>
    rw [List.flatten_cons, List.append_assoc, chunks_append n hn _ _ (h a (by simp)),
      ih (fun x hx => h x (by simp [hx]))]
    simp

theorem mem_chunks_length {α} (n : Nat) (hn : 0 < n) (l : List α) :
    ∀ c ∈ chunks n l, 0 < c.length ∧ c.length ≤ n := by
  induction l using chunks_induction n hn with
  | nil => simp
  | step l h ih =>
    rw [chunks_cons n hn l h]
    intro c hc
    rcases List.mem_cons.mp hc with rfl | hc
    · have := List.length_pos_iff.mpr h
      simp; omega
    · exact ih c hc

theorem mem_chunks_length_eq {α} (n : Nat) (hn : 0 < n) (l : List α) (hd : n ∣ l.length) :
    ∀ c ∈ chunks n l, c.length = n := by
  induction l using chunks_induction n hn with
  | nil => simp
  | step l h ih =>
    rw [chunks_cons n hn l h]
    intro c hc
    have := List.length_pos_iff.mpr h
    have := Nat.le_of_dvd this hd
    rcases List.mem_cons.mp hc with rfl | hc
    · simp; omega
    · exact ih (by rw [List.length_drop]; exact Nat.dvd_sub hd (Nat.dvd_refl n)) c hc

theorem length_chunks {α} (n : Nat) (hn : 0 < n) (l : List α) : (chunks n l).length = (l.length + n - 1) / n := by
  induction l using chunks_induction n hn with
  | nil => simp [Nat.div_eq_of_lt (show n - 1 < n by omega)]
  | step l h ih =>
    rw [chunks_cons n hn l h, List.length_cons, ih, List.length_drop]
    have := List.length_pos_iff.mpr h
    by_cases hl : l.length ≤ n
    · rw [show l.length - n + n - 1 = n - 1 by omega]
      rw [Nat.div_eq_of_lt (by omega)]
      symm
      rw [Nat.div_eq_iff hn]; omega
    · rw [show l.length + n - 1 = (l.length - n + n - 1) + n by omega, Nat.add_div_right _ hn]

/-! ### bits -/

theorem UInt8.forall_ofNat {P : UInt8 → Prop} (h : ∀ n, n < 256 → P (UInt8.ofNat n)) (b : UInt8) : P b := by
  have := h b.toNat b.toNat_lt
  rwa [UInt8.ofNat_toNat] at this

theorem packByte_unpackByte (b : UInt8) : packByte (unpackByte b) = b := by
  revert b
  apply UInt8.forall_ofNat
  decide +kernel

theorem unpackByte_packByte : ∀ b0 b1 b2 b3 b4 b5 b6 b7 : Bool,
    unpackByte (packByte [b0, b1, b2, b3, b4, b5, b6, b7]) = [b0, b1, b2, b3, b4, b5, b6, b7] := by
  decide +kernel

@[simp] theorem length_unpackByte (b : UInt8) : (unpackByte b).length = 8 := by simp [unpackByte]

theorem unpackByte_packByte' (l : List Bool) (h : l.length = 8) : unpackByte (packByte l) = l := by
  match l, h with
  | [b0, b1, b2, b3, b4, b5, b6, b7], _ => exact unpackByte_packByte ..

theorem length_unpackbits (b : Bytes) : (unpackbits b).length = 8 * b.length := by
  induction b with
  | nil => simp [unpackbits]
  | cons a b ih =>
    simp only [unpackbits, List.flatMap_cons, List.length_append, length_unpackByte, List.length_cons] at *
    omega

theorem packbits_unpackbits (b : Bytes) : packbits (unpackbits b) = b := by
  induction b with
  | nil => simp [packbits, unpackbits]
  | cons a b ih =>
    simp only [packbits, unpackbits, List.flatMap_cons] at *
    rw [chunks_append 8 (by omega) _ _ (length_unpackByte a), List.map_cons, packByte_unpackByte, ih]

theorem unpackbits_packbits (l : List Bool) (h : 8 ∣ l.length) : unpackbits (packbits l) = l := by
  induction l using chunks_induction 8 (by omega) with
  | nil => simp [packbits, unpackbits]
  | step l hl ih =>
    have := List.length_pos_iff.mpr hl
    have := Nat.le_of_dvd this h
    have ih := ih (by rw [List.length_drop]; exact Nat.dvd_sub h (Nat.dvd_refl 8))
    rw [packbits, chunks_cons 8 (by omega) l hl, List.map_cons, unpackbits, List.flatMap_cons,
      unpackByte_packByte' _ (by simp; omega)]
    rw [packbits, unpackbits] at ih
    rw [ih, List.take_append_drop]

theorem length_packbits (l : List Bool) : (packbits l).length = (l.length + 7) / 8 := by
  rw [packbits, List.length_map, length_chunks 8 (by omega), show l.length + 8 - 1 = l.length + 7 by omega]

/-! ### words -/

theorem toNat_ofNat (n : Nat) : (UInt8.ofNat n).toNat = n % 256 := by simp

theorem ofNat_toNat (b : UInt8) : UInt8.ofNat b.toNat = b := by simp

@[simp] theorem length_enc16 (n : Nat) : (enc16 n).length = 2 := rfl
@[simp] theorem length_enc32 (n : Nat) : (enc32 n).length = 4 := rfl

theorem le16_enc (n : Nat) : le16 (UInt8.ofNat n) (UInt8.ofNat (n / 256)) = n % 65536 := by
  simp only [le16, toNat_ofNat]; omega

theorem le32_enc (n : Nat) : le32 (UInt8.ofNat n) (UInt8.ofNat (n / 256)) (UInt8.ofNat (n / 65536))
    (UInt8.ofNat (n / 16777216)) = n % 4294967296 := by
  simp only [le32, toNat_ofNat]; omega

theorem le16_lt (a b : UInt8) : le16 a b < 65536 := by
  have := a.toNat_lt; have := b.toNat_lt; unfold le16; omega

/-! ### names -/

@[simp] theorem length_encS (n : Nat) (l : Bytes) : (encS n l).length = n := by
  simp [encS]; omega

/-- no trailing byte satisfying `p` -/
def NoTrail (p : UInt8 → Bool) (l : Bytes) : Prop := ∀ x, l.getLast? = some x → p x = false

theorem dropWhile_reverse_eq (p : UInt8 → Bool) (l : Bytes) (h : NoTrail p l) :
    (l.reverse.dropWhile p).reverse = l := by
  cases hl : l.reverse with
  | nil => simp at hl; simp [hl]
  | cons a t =>
    have : l.getLast? = some a := by rw [← List.head?_reverse, hl]; rfl
    rw [List.dropWhile_cons_of_neg (by simp [h a this]), ← hl, List.reverse_reverse]

theorem dropWhile_reverse_append (p : UInt8 → Bool) (l t : Bytes) (ht : ∀ x ∈ t, p x = true) (h : NoTrail p l) :
    ((l ++ t).reverse.dropWhile p).reverse = l := by
  rw [List.reverse_append, List.dropWhile_append]
  have : t.reverse.dropWhile p = [] := by
    have h : ∀ x ∈ t.reverse, p x = true := fun x hx => ht x (by simpa using hx)
    generalize t.reverse = u at h
    induction u with
    | nil => rfl
    | cons a u ih => rw [List.dropWhile_cons_of_pos (h a (by simp))]; exact ih fun x hx => h x (by simp [hx])
  simp [this]
  simpa using dropWhile_reverse_eq p l h

theorem rstripNul_append (l : Bytes) (n : Nat) (h : NoTrail (· == 0) l) : rstripNul (l ++ List.replicate n 0) = l :=
  dropWhile_reverse_append _ _ _ (by intro x hx; simp [(List.mem_replicate.mp hx).2]) h

theorem rstripNul_eq (l : Bytes) (h : NoTrail (· == 0) l) : rstripNul l = l := dropWhile_reverse_eq _ _ h
theorem rstripWs_eq (l : Bytes) (h : NoTrail isWs l) : rstripWs l = l := dropWhile_reverse_eq _ _ h

theorem rstripWs_append (l : Bytes) (n : Nat) (h : NoTrail isWs l) : rstripWs (l ++ List.replicate n 32) = l :=
  dropWhile_reverse_append _ _ _ (by intro x hx; rw [(List.mem_replicate.mp hx).2]; decide) h

theorem noTrail_dropWhile (p : UInt8 → Bool) (l : Bytes) : NoTrail p (l.reverse.dropWhile p).reverse := by
  intro x hx
  rw [List.getLast?_reverse] at hx
  have := List.head?_dropWhile_not p l.reverse
  rw [hx] at this; simpa using this

end Atr
