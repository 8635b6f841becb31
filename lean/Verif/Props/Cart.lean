import Verif.Model.Cart
import Verif.Lemmas.Basic
/-!
# C31, C32, C33, C53, C54: cartridges, ROMs and MAME archives
-/
namespace Atr

/-! ### The table -/

/-- the numbers of the table are distinct -/
theorem knownCarts_nodup : (knownCarts.map (·.id)).Nodup := by decide +kernel

theorem getCart_ok {t : Nat} {c : CartType} : getCart t = .ok c ↔ c ∈ knownCarts ∧ c.id = t := by
  unfold getCart
  constructor
  · intro h
    split at h
    · rename_i c' hf
      injection h with h
      subst h
      exact ⟨List.mem_of_find?_eq_some hf, by simpa using List.find?_some hf⟩
    · cases h
  · rintro ⟨hm, rfl⟩
    have key : ∀ l : List CartType, (l.map (·.id)).Nodup → c ∈ l → l.find? (·.id == c.id) = some c := by
      intro l
      induction l with
      | nil => intro _ h; cases h
      | cons d l ih =>
        intro hn hm
        rw [List.map_cons, List.nodup_cons] at hn
        rw [List.find?_cons]
        rcases List.mem_cons.mp hm with rfl | hm
        · simp
        · have : d.id ≠ c.id := fun he => hn.1 (he ▸ List.mem_map_of_mem hm)
          rw [show (d.id == c.id) = false by simpa using this]
          exact ih hn.2 hm
    rw [key _ knownCarts_nodup hm]

theorem getCart_error {t : Nat} (h : ∀ c ∈ knownCarts, c.id ≠ t) : getCart t = .error .invalidDiskImage := by
  unfold getCart
  rw [List.find?_eq_none.mpr]
  intro c hc
  simpa using h c hc

/-- a fixed bank that is the whole cartridge, or equal banks from the start with the fixed bank behind them -/
def Layout (h : CartHeader) : Prop :=
  (h.banks = [] ∧ h.mainOffset = 0 ∧ h.mainSize = h.cartSize) ∨
  (0 < h.bankSize ∧ h.mainOffset + h.mainSize = h.cartSize ∧ h.mainOffset % h.bankSize = 0 ∧
    h.banks = (List.range (h.mainOffset / h.bankSize)).map (· * h.bankSize))

instance (h : CartHeader) : Decidable (Layout h) := by unfold Layout; infer_instance

theorem layout_table : ∀ c ∈ knownCarts, ∃ h, CartHeader.setType {} c.id = .ok h ∧ Layout h ∧ h.cartSize = c.size ∧ h.is5200 = c.is5200 := by
  have : ∀ c ∈ knownCarts, (match CartHeader.setType {} c.id with
      | .ok h => decide (Layout h) && h.cartSize == c.size && h.is5200 == c.is5200
      | .error _ => false) = true := by decide +kernel
  intro c hc
  have := this c hc
  split at this
  · rename_i h hs
    simp only [Bool.and_eq_true, decide_eq_true_eq, beq_iff_eq] at this
    exact ⟨h, hs, this.1.1, this.1.2, this.2⟩
  · cases this

theorem setType_base (crc off t : Nat) : CartHeader.setType { crc := crc, headerOffset := off } t =
    (CartHeader.setType {} t).map fun h => { h with crc := crc, headerOffset := off } := by
  unfold CartHeader.setType
  cases getCart t with
  | error e => rfl
  | ok c =>
    simp only
    match c.rest with
    | [] => rfl
    | [_] => rfl
    | [_, _] => rfl
    | [_, _, _] => rfl
    | [_, _, _, _] => rfl
    | [_, _, _, _, _] => rfl
    | _ :: _ :: _ :: _ :: _ :: _ :: _ => rfl

/-- what `set_type` gives on a header that has only a checksum and an offset -/
theorem setType_spec (crc off t : Nat) :
    (∃ c h, c ∈ knownCarts ∧ c.id = t ∧ CartHeader.setType { crc := crc, headerOffset := off } t = .ok h ∧ Layout h ∧
      h.cartType = some t ∧ h.cartSize = c.size ∧ h.is5200 = c.is5200 ∧ h.crc = crc ∧ h.headerOffset = off) ∨
    ((∀ c ∈ knownCarts, c.id ≠ t) ∧ CartHeader.setType { crc := crc, headerOffset := off } t = .error .invalidDiskImage) := by
  by_cases hk : ∃ c ∈ knownCarts, c.id = t
  · obtain ⟨c, hc, hid⟩ := hk
    obtain ⟨h, h1, h2, h3, h4⟩ := layout_table c hc
    left
    refine ⟨c, { h with crc := crc, headerOffset := off }, hc, hid, ?_, h2, ?_, h3, h4, rfl, rfl⟩
    · rw [setType_base, ← hid, h1]; rfl
    · have : CartHeader.setType {} t = .ok h := by rw [← hid]; exact h1
      unfold CartHeader.setType at this
      cases hg : getCart t with
      | error e => rw [hg] at this; cases this
      | ok d =>
        rw [hg] at this
        simp only at this
        revert this
        match d.rest with
        | [] => intro h; injection h with h; subst h; rfl
        | [_] => intro h; injection h with h; subst h; rfl
        | [_, _] => intro h; injection h with h; subst h; rfl
        | [_, _, _] => intro h; injection h with h; subst h; rfl
        | [_, _, _, _] => intro h; injection h with h; subst h; rfl
        | [_, _, _, _, _] => intro h; injection h with h; subst h; rfl
        | _ :: _ :: _ :: _ :: _ :: _ :: _ => intro h; injection h with h; subst h; rfl
  · right
    have hn : ∀ c ∈ knownCarts, c.id ≠ t := fun c hc he => hk ⟨c, hc, he⟩
    refine ⟨hn, ?_⟩
    unfold CartHeader.setType
    rw [getCart_error hn]

/-! ### C31 -/

/-- disjoint ranges that fill everything from `a` to `b` -/
def Tiling (l : List (Nat × Nat)) (a b : Nat) : Prop :=
  (∀ r ∈ l, a ≤ r.1 ∧ r.1 ≤ r.2 ∧ r.2 ≤ b) ∧ l.Pairwise (fun r s => r.2 ≤ s.1 ∨ s.2 ≤ r.1) ∧
  ∀ x, a ≤ x → x < b → ∃ r ∈ l, r.1 ≤ x ∧ x < r.2

theorem lt_of_kb {x o k q : Nat} (hk : (x - o) / 1024 = k) (hx : o ≤ x) (h : k < q) : x < o + q * 1024 := by omega

theorem layout_tiling {h : CartHeader} (hl : Layout h) : Tiling (cartRanges h) h.headerOffset (h.headerOffset + h.cartSize * 1024) := by
  unfold cartRanges
  rcases hl with ⟨h1, h2, h3⟩ | ⟨h1, h2, h3, h4⟩
  · rw [h1, h2, h3]
    refine ⟨fun r hr => ?_, by simp, fun x hx hx2 => ⟨_, List.mem_cons_self, by simpa using hx, by simpa using hx2⟩⟩
    simp at hr
    subst hr
    simp
  · rw [h4]
    obtain ⟨n, hn⟩ : ∃ n, h.mainOffset = n * h.bankSize := ⟨h.mainOffset / h.bankSize, by
      have := Nat.div_add_mod h.mainOffset h.bankSize
      rw [h3, Nat.add_zero, Nat.mul_comm] at this
      exact this.symm⟩
    rw [hn, Nat.mul_div_cancel _ h1]
    generalize h.headerOffset = o
    have h2 : n * h.bankSize + h.mainSize = h.cartSize := by omega
    generalize h.bankSize = b at *
    generalize h.mainSize = m at *
    generalize h.cartSize = c at *
    have hend : ∀ i, i < n → (i + 1) * b ≤ n * b := fun i hi => Nat.mul_le_mul_right b hi
    have hmap : (((List.range n).map (· * b)).map fun q => (o + q * 1024, o + q * 1024 + b * 1024)) =
        (List.range n).map fun i => (o + i * b * 1024, o + (i + 1) * b * 1024) := by
      rw [List.map_map]
      apply List.map_congr_left
      intro i _
      simp only [Function.comp_apply, Prod.mk.injEq, true_and]
      rw [Nat.add_mul i 1 b]; omega
    rw [hmap]
    refine ⟨fun r hr => ?_, ?_, fun x hx hx2 => ?_⟩
    · rcases List.mem_cons.mp hr with rfl | hr
      · simp only; omega
      · obtain ⟨i, hi, rfl⟩ := List.mem_map.mp hr
        have := hend i (List.mem_range.mp hi)
        simp only
        rw [Nat.add_mul i 1 b] at *
        omega
    · rw [List.pairwise_cons]
      constructor
      · intro r hr
        obtain ⟨i, hi, rfl⟩ := List.mem_map.mp hr
        have := hend i (List.mem_range.mp hi)
        right
        simp only
        omega
      · rw [List.pairwise_map]
        refine List.Pairwise.imp ?_ List.pairwise_lt_range
        intro i j hij
        left
        have : (i + 1) * b ≤ j * b := Nat.mul_le_mul_right b hij
        simp only
        omega
    · by_cases hm : o + n * b * 1024 ≤ x
      · exact ⟨_, List.mem_cons_self, hm, by simp only; omega⟩
      · -- the bank of `x`
        have hlt : (x - o) / 1024 < n * b := by omega
        generalize hk : (x - o) / 1024 = k at *
        have hi : k / b < n := Nat.div_lt_of_lt_mul (by rw [Nat.mul_comm]; exact hlt)
        refine ⟨(o + k / b * b * 1024, o + (k / b + 1) * b * 1024), List.mem_cons_of_mem _ (List.mem_map.mpr ⟨k / b, List.mem_range.mpr hi, rfl⟩), ?_, ?_⟩
        · have : k / b * b ≤ k := Nat.div_mul_le_self k b
          simp only
          omega
        · have : k < (k / b + 1) * b := by
            have := Nat.div_add_mod k b
            have := Nat.mod_lt k h1
            rw [Nat.add_mul, Nat.one_mul, Nat.mul_comm]
            omega
          exact lt_of_kb hk hx this

theorem openCart_spec {data : Bytes} {t : Nat} {h : CartHeader} (ho : openCart data t = .ok h) :
    h = {} ∨ ∃ ht c, h.cartType = some ht ∧ c ∈ knownCarts ∧ c.id = ht ∧ h.cartSize = c.size ∧ h.is5200 = c.is5200 ∧ Layout h ∧ h.headerOffset = 16 ∧
      data.length = 16 + c.size * 1024 := by
  unfold openCart at ho
  cases hg : getCart t with
  | error e => rw [hg] at ho; cases ho
  | ok c0 =>
    rw [hg] at ho
    simp only at ho
    cases hr : readCartHeader data with
    | error e => rw [hr] at ho; cases ho
    | ok h' =>
      rw [hr] at ho
      simp only at ho
      cases hc : cartCheckSize data h' with
      | error e => rw [hc] at ho; cases ho
      | ok u =>
        rw [hc] at ho
        injection ho with ho
        subst ho
        unfold readCartHeader at hr
        split at hr
        · injection hr with hr; left; exact hr.symm
        · right
          unfold CartHeader.decode at hr
          split at hr
          · rename_i m0 m1 m2 m3 t0 t1 t2 t3 c0 c1 c2 c3 _ _ _ _ hb
            split at hr
            · cases hr
            · rcases setType_spec (be32 c0 c1 c2 c3) 16 (be32 t0 t1 t2 t3) with ⟨c, h2, k1, k2, k3, k4, k5, k6, k7, k8, k9⟩ | ⟨_, k2⟩
              · rw [k3] at hr
                injection hr with hr
                subst hr
                refine ⟨_, c, k5, k1, k2, k6, k7, k4, k9, ?_⟩
                unfold cartCheckSize at hc
                rw [k5] at hc
                simp only at hc
                rw [getCart_ok.mpr ⟨k1, k2⟩, k9] at hc
                simp only at hc
                split at hc
                · cases hc
                · split at hc
                  · cases hc
                  · have hlen := congrArg List.length hb
                    simp only [List.length_take, List.length_cons, List.length_nil] at hlen
                    omega
              · rw [k2] at hr; cases hr
          · cases hr

/-- **C31.** Whenever an image opens as a cartridge in strict mode, the fixed bank and the switchable banks are disjoint
ranges that lie inside the image and fill everything behind the 16-byte header. -/
theorem C31_strict {data : Bytes} {t : Nat} {five : Bool} {h : CartHeader} (ho : openCart data t = .ok h)
    (hs : cartStrictCheck h t five = .ok ()) : h.headerOffset = 16 ∧ h.cartType = some t ∧ Tiling (cartRanges h) 16 data.length := by
  unfold cartStrictCheck at hs
  rcases openCart_spec ho with rfl | ⟨ht, c, k1, k2, k3, k4, _, k5, k6, k7⟩
  · split at hs
    · cases hs
    · cases hs
  · split at hs
    · cases hs
    · rw [k1] at hs
      simp only at hs
      split at hs
      · cases hs
      · rename_i hne
        have := layout_tiling k5
        rw [k6, k4, ← k7] at this
        exact ⟨k6, by rw [k1]; simpa using hne, this⟩

/-- **C31 for images without a header**: forcing a type gives ranges that fill the image exactly. -/
theorem C31_forced {data : Bytes} {t : Nat} {h h' : CartHeader} (ho : openCart data t = .ok h) (hr : cartRelaxedCheck data h t = .ok h') :
    h'.cartType = some t ∧ (h'.headerOffset = 0 ∨ h'.headerOffset = 16) ∧ Tiling (cartRanges h') h'.headerOffset data.length := by
  unfold cartRelaxedCheck at hr
  split at hr
  · rcases setType_spec 0 0 t with ⟨c, h2, k1, k2, k3, k4, k5, k6, k7, k8, k9⟩ | ⟨_, k2⟩
    · have k3' : CartHeader.setType {} t = .ok h2 := k3
      rw [k3'] at hr
      simp only at hr
      cases hc : cartCheckSize data h2 with
      | error e => rw [hc] at hr; cases hr
      | ok u =>
        rw [hc] at hr
        injection hr with hr
        subst hr
        refine ⟨k5, Or.inl k9, ?_⟩
        unfold cartCheckSize at hc
        rw [k5] at hc
        simp only at hc
        rw [getCart_ok.mpr ⟨k1, k2⟩, k9] at hc
        simp only at hc
        split at hc
        · cases hc
        · split at hc
          · cases hc
          · have := layout_tiling k4
            rw [k9, k6] at this
            rw [k9]
            have e : data.length = 0 + c.size * 1024 := by omega
            rw [e]
            exact this
    · have k2' : CartHeader.setType {} t = .error .invalidDiskImage := k2
      rw [k2'] at hr; cases hr
  · rename_i hne
    injection hr with hr
    subst hr
    rcases openCart_spec ho with rfl | ⟨ht, c, k1, k2, k3, k4, _, k5, k6, k7⟩
    · exact absurd (by simp) hne
    · have := layout_tiling k5
      rw [k6, k4, ← k7] at this
      rw [k6]
      exact ⟨by simpa using hne, Or.inr rfl, this⟩

/-- XEGS 32 KB: the fixed bank is the last 8 KB, three banks before it -/
example : (CartHeader.setType { headerOffset := 16 } 12).toOption.map cartRanges =
    some [(24592, 32784), (16, 8208), (8208, 16400), (16400, 24592)] := by decide +kernel

/-! ### C32 -/

theorem be32_enc (n : Nat) (h : n < 2 ^ 32) : be32 (UInt8.ofNat (n / 16777216)) (UInt8.ofNat (n / 65536)) (UInt8.ofNat (n / 256)) (UInt8.ofNat n) = n := by
  unfold be32 le32
  simp only [toNat_ofNat]
  omega

/-- **C32.** A header with a known type and any 32-bit checksum reads back with the same type and checksum; a header with
any other type number is refused. -/
theorem C32_partial (h : CartHeader) (t : Nat) (ht : h.cartType = some t) (htl : t < 2 ^ 32) (hc : h.crc < 2 ^ 32) :
    h.toArray.length = 16 ∧
    ((∃ c ∈ knownCarts, c.id = t) → ∃ h', CartHeader.decode h.toArray = .ok h' ∧ h'.cartType = some t ∧ h'.crc = h.crc ∧ h'.headerOffset = 16) ∧
    ((∀ c ∈ knownCarts, c.id ≠ t) → CartHeader.decode h.toArray = .error .invalidDiskImage) := by
  have harr : h.toArray = cartMagic ++ [UInt8.ofNat (t / 16777216), UInt8.ofNat (t / 65536), UInt8.ofNat (t / 256), UInt8.ofNat t] ++
      [UInt8.ofNat (h.crc / 16777216), UInt8.ofNat (h.crc / 65536), UInt8.ofNat (h.crc / 256), UInt8.ofNat h.crc] ++ [0, 0, 0, 0] := by
    unfold CartHeader.toArray; rw [ht]; rfl
  have hd : CartHeader.decode h.toArray = CartHeader.setType { crc := h.crc, headerOffset := 16 } t := by
    rw [harr]
    show (if [(0x43 : UInt8), 0x41, 0x52, 0x54] ≠ cartMagic then Except.error Err.invalidCartHeader else
      CartHeader.setType { crc := be32 _ _ _ _, headerOffset := 16 } (be32 _ _ _ _)) = _
    rw [if_neg (by decide), be32_enc t htl, be32_enc h.crc hc]
  refine ⟨by rw [harr]; rfl, fun ⟨c, hc1, hc2⟩ => ?_, fun hn => ?_⟩
  · rcases setType_spec h.crc 16 t with ⟨c, h2, k1, k2, k3, k4, k5, k6, k7, k8, k9⟩ | ⟨hn, _⟩
    · exact ⟨h2, hd.trans k3, k5, k8, k9⟩
    · exact absurd hc2 (hn c hc1)
  · rcases setType_spec h.crc 16 t with ⟨c, h2, k1, k2, _⟩ | ⟨_, k⟩
    · exact absurd k2 (hn c k1)
    · exact hd.trans k

example : ({ cartType := some 41, crc := 0x01020304 } : CartHeader).toArray =
    [0x43, 0x41, 0x52, 0x54, 0, 0, 0, 41, 1, 2, 3, 4, 0, 0, 0, 0] := by decide

/-! ### C33 -/

/-- **C33.** A ROM image is accepted exactly if its size is zero or a power of two. -/
theorem C33_rom (size : Nat) : romCheckSize size = .ok () ↔ size = 0 ∨ ∃ k, size = 2 ^ k := by
  unfold romCheckSize
  by_cases h0 : size = 0
  · simp [h0]
  · have := Nat.and_sub_one_eq_zero_iff_isPowerOfTwo h0
    simp only [h0, if_false, false_or]
    by_cases hz : size &&& (size - 1) = 0
    · rw [if_neg (by simpa using hz)]
      exact ⟨fun _ => this.mp hz, fun _ => rfl⟩
    · rw [if_pos hz]
      refine ⟨fun h => (nomatch h), fun h => absurd (this.mpr h) hz⟩

example : romCheckSize 8192 = .ok () ∧ romCheckSize 8191 = .error .invalidDiskImage := by decide

/-! ### C53: the boot segment of a cartridge -/

/-- **C53.** Take an image without header, forced to some type.  Its emulator boot segment is a file with a header that
opens in strict mode as the same type, and behind the header it holds the image byte for byte.  An image that already has
a header is its own boot segment. -/
theorem C53_boot {data : Bytes} {t : Nat} {h h' : CartHeader} (ho : openCart data t = .ok h) (hr : cartRelaxedCheck data h t = .ok h') :
    (h'.headerOffset = 16 → cartBoot data h' = data) ∧
    (h'.headerOffset = 0 → ∃ g, openCart (cartBoot data h') t = .ok g ∧ cartStrictCheck g t h'.is5200 = .ok () ∧
      (cartBoot data h').drop g.headerOffset = data) := by
  unfold cartRelaxedCheck at hr
  split at hr
  · rcases setType_spec 0 0 t with ⟨c, h2, k1, k2, k3, k4, k5, k6, k7, k8, k9⟩ | ⟨_, k2⟩
    · have k3' : CartHeader.setType {} t = .ok h2 := k3
      rw [k3'] at hr
      simp only at hr
      cases hc : cartCheckSize data h2 with
      | error e => rw [hc] at hr; cases hr
      | ok u =>
        rw [hc] at hr
        injection hr with hr
        subst hr
        refine ⟨fun h => absurd h (by rw [k9]; decide), fun _ => ?_⟩
        unfold cartCheckSize at hc
        rw [k5] at hc
        simp only at hc
        rw [getCart_ok.mpr ⟨k1, k2⟩, k9] at hc
        simp only at hc
        split at hc
        · cases hc
        · split at hc
          · cases hc
          · rename_i e1 e2
            have hlen : data.length = c.size * 1024 := by omega
            have hid : ∀ c ∈ knownCarts, c.id < 2 ^ 32 := by decide +kernel
            have htl : t < 2 ^ 32 := k2 ▸ hid c k1
            have hboot : cartBoot data h2 = ({ h2 with crc := 0 } : CartHeader).toArray ++ data := by
              unfold cartBoot; rw [if_pos (by omega)]
            have hal : ({ h2 with crc := 0 } : CartHeader).toArray.length = 16 :=
              (C32_partial { h2 with crc := 0 } t k5 htl (by decide : (0 : Nat) < 2 ^ 32)).1
            obtain ⟨_, r2, _⟩ := C32_partial { h2 with crc := 0 } t k5 htl (by decide : (0 : Nat) < 2 ^ 32)
            obtain ⟨g, g1, g2, g3, g4⟩ := r2 ⟨c, k1, k2⟩
            have htake : (({ h2 with crc := 0 } : CartHeader).toArray ++ data).take 16 = ({ h2 with crc := 0 } : CartHeader).toArray := by
              rw [← hal, List.take_left']
              rfl
            have hg5 : g.is5200 = h2.is5200 := by
              have e : CartHeader.decode ({ h2 with crc := 0 } : CartHeader).toArray = CartHeader.decode ({ h2 with crc := 0 } : CartHeader).toArray := rfl
              rcases setType_spec g.crc 16 t with ⟨c', h3, j1, j2, j3, j4, j5, j6, j7, j8, j9⟩ | ⟨hn, _⟩
              · have : getCart t = .ok c := getCart_ok.mpr ⟨k1, k2⟩
                have : getCart t = .ok c' := getCart_ok.mpr ⟨j1, j2⟩
                rw [getCart_ok.mpr ⟨k1, k2⟩] at this
                injection this with this
                subst this
                have hopen : openCart (({ h2 with crc := 0 } : CartHeader).toArray ++ data) t = .ok g := by
                  unfold openCart readCartHeader
                  rw [getCart_ok.mpr ⟨k1, k2⟩, htake, g1]
                  simp only
                  unfold cartCheckSize
                  rw [g2]
                  simp only
                  rw [getCart_ok.mpr ⟨k1, k2⟩, g4]
                  simp only [List.length_append, hal, hlen]
                  rw [if_neg (by omega), if_neg (by omega)]
                rcases openCart_spec hopen with rfl | ⟨ht, c2, m1, m2, m3, m4, m5, _⟩
                · cases g2
                · rw [g2] at m1
                  injection m1 with m1
                  have : getCart t = .ok c2 := getCart_ok.mpr ⟨m2, m3.trans m1.symm⟩
                  rw [getCart_ok.mpr ⟨k1, k2⟩] at this
                  injection this with this
                  rw [m5, k7, this]
              · exact absurd k2 (hn c k1)
            refine ⟨g, ?_, ?_, ?_⟩
            · rw [hboot]
              unfold openCart readCartHeader
              rw [getCart_ok.mpr ⟨k1, k2⟩, htake, g1]
              simp only
              unfold cartCheckSize
              rw [g2]
              simp only
              rw [getCart_ok.mpr ⟨k1, k2⟩, g4]
              simp only [List.length_append, hal, hlen]
              rw [if_neg (by omega), if_neg (by omega)]
            · unfold cartStrictCheck
              rw [if_neg (by simpa using hg5), g2]
              simp
            · rw [hboot, g4, ← hal, List.drop_left]
    · have k2' : CartHeader.setType {} t = .error .invalidDiskImage := k2
      rw [k2'] at hr; cases hr
  · rename_i hne
    injection hr with hr
    subst hr
    rcases openCart_spec ho with rfl | ⟨ht, c, k1, k2, k3, k4, _, k5, k6, k7⟩
    · exact absurd (by simp) hne
    · refine ⟨fun _ => ?_, fun h => absurd h (by rw [k6]; decide)⟩
      unfold cartBoot
      rw [if_neg (by omega)]

/-- `add_cart_header` is of no use: whatever the data, the file it makes is refused for every cartridge type. -/
theorem C53_add_header_useless (data : Bytes) (t : Nat) : ∃ e, openCart (addCartHeader data) t = .error e := by
  unfold openCart
  cases getCart t with
  | error e => exact ⟨e, rfl⟩
  | ok c =>
    simp only
    have hk : ∀ c ∈ knownCarts, c.id ≠ 0xffffffff := by decide +kernel
    have : readCartHeader (addCartHeader data) = .error .invalidDiskImage := by
      unfold readCartHeader addCartHeader
      have ht : (({ headerOffset := 16 } : CartHeader).toArray ++ data).take 16 = ({ headerOffset := 16 } : CartHeader).toArray :=
        List.take_left' rfl
      rw [ht]
      have : ({ headerOffset := 16 } : CartHeader).toArray = ({ cartType := some 0xffffffff } : CartHeader).toArray := by decide
      rw [this, (C32_partial { cartType := some 0xffffffff } 0xffffffff rfl (by decide) (by decide : (0 : Nat) < 2 ^ 32)).2.2 hk]
    rw [this]
    exact ⟨_, rfl⟩

/-! ### C54: MAME archives -/

/-- **C54.** A MAME archive (with entry data of the declared sizes, each size a multiple of 16, at least one entry) opens; every segment holds
exactly the data of its entry, and the segments follow each other through the whole ROM data. -/
theorem C54_mame (items : List ZipItem) (hne : items ≠ []) (hsz : ∀ i ∈ items, i.data.length = i.fileSize) (h16 : ∀ i ∈ items, i.fileSize % 16 = 0) :
    ∃ data ranges, openMame items = .ok (data, ranges) ∧ ranges.map (fun r => slice data r.1 r.2) = items.map (·.data) ∧
      Tiling ranges 0 data.length := by
  unfold openMame
  rw [if_neg (by
    simp only [List.any_eq_true, decide_eq_true_eq, not_exists, not_and]
    intro i hi; have := h16 i hi; omega), if_neg (by cases items with | nil => exact absurd rfl hne | cons => simp)]
  refine ⟨_, _, rfl, ?_⟩
  -- the ranges as a function of the remaining items
  have key : ∀ (items : List ZipItem) (acc : List (Nat × Nat)) (o : Nat) (pre : Bytes), (∀ i ∈ items, i.data.length = i.fileSize) → pre.length = o →
      ∃ rs, (items.foldl (fun (acc : List (Nat × Nat) × Nat) i => (acc.1 ++ [(acc.2, acc.2 + i.fileSize)], acc.2 + i.fileSize)) (acc, o)).1 = acc ++ rs ∧
        rs.map (fun r => slice (pre ++ (items.map (·.data)).flatten) r.1 r.2) = items.map (·.data) ∧
        Tiling rs o (o + (items.map (·.data)).flatten.length) := by
    intro items
    induction items with
    | nil =>
      intro acc o pre _ _
      exact ⟨[], by simp, rfl, fun r hr => (nomatch hr), List.Pairwise.nil, fun x h1 h2 => by simp at h2; omega⟩
    | cons it items ih =>
      intro acc o pre hs hp
      have hit := hs it List.mem_cons_self
      obtain ⟨rs, e1, e2, e3, e4, e5⟩ := ih (acc ++ [(o, o + it.fileSize)]) (o + it.fileSize) (pre ++ it.data)
        (fun i hi => hs i (List.mem_cons_of_mem _ hi)) (by rw [List.length_append, hp, hit])
      refine ⟨(o, o + it.fileSize) :: rs, ?_, ?_, ?_⟩
      · rw [List.foldl_cons]
        simp only
        rw [e1, List.append_assoc]; rfl
      · rw [List.map_cons, List.map_cons, List.flatten_cons, ← List.append_assoc, e2]
        congr 1
        simp only
        unfold slice
        rw [← hp, ← hit, List.append_assoc, List.take_append, List.drop_append]
        simp
      · rw [List.map_cons, List.flatten_cons, List.length_append, hit]
        refine ⟨fun r hr => ?_, ?_, fun x h1 h2 => ?_⟩
        · rcases List.mem_cons.mp hr with rfl | hr
          · simp only; omega
          · have := e3 r hr; omega
        · rw [List.pairwise_cons]
          exact ⟨fun r hr => Or.inl (e3 r hr).1, e4⟩
        · by_cases hx : x < o + it.fileSize
          · exact ⟨_, List.mem_cons_self, h1, hx⟩
          · obtain ⟨r, hr, h3⟩ := e5 x (by omega) (by omega)
            exact ⟨r, List.mem_cons_of_mem _ hr, h3⟩
  obtain ⟨rs, e1, e2, e3⟩ := key items [] 0 [] hsz rfl
  rw [e1]
  refine ⟨e2, ?_⟩
  rw [Nat.zero_add] at e3
  exact e3

/-- An archive without entries does not count as "no MAME archive": the error is not an `AtrError`, so it ends the
detection of other formats. -/
theorem C54_empty_archive : openMame [] = .error .valueError ∧ Err.isAtr .valueError = false := by decide

example : (openMame [⟨16, List.replicate 16 1⟩, ⟨32, List.replicate 32 2⟩]).toOption.map (·.2) = some [(0, 16), (16, 48)] := by decide

end Atr
