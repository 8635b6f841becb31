import Verif.Props.Cart
/-!
# C65, C66: which images open as cartridges, and where their banks appear in memory
-/
namespace Atr

/-- the file starts with the word `CART` (and is long enough for a header) -/
def HasCart (data : Bytes) : Prop := 16 ≤ data.length ∧ data.take 4 = [0x43, 0x41, 0x52, 0x54]

/-- the type number in a header: four bytes, most significant first -/
def cartNumber (data : Bytes) : Nat :=
  (data.getD 4 0).toNat * 16777216 + (data.getD 5 0).toNat * 65536 + (data.getD 6 0).toNat * 256 + (data.getD 7 0).toNat

theorem decode_spec (data : Bytes) :
    (¬ HasCart data ∧ CartHeader.decode (data.take 16) = .error .invalidCartHeader) ∨
    (HasCart data ∧ ∃ crc, CartHeader.decode (data.take 16) = CartHeader.setType { crc := crc, headerOffset := 16 } (cartNumber data)) := by
  match data with
  | m0 :: m1 :: m2 :: m3 :: t0 :: t1 :: t2 :: t3 :: c0 :: c1 :: c2 :: c3 :: z0 :: z1 :: z2 :: z3 :: rest =>
    have ht : (m0 :: m1 :: m2 :: m3 :: t0 :: t1 :: t2 :: t3 :: c0 :: c1 :: c2 :: c3 :: z0 :: z1 :: z2 :: z3 :: rest).take 16 =
      [m0, m1, m2, m3, t0, t1, t2, t3, c0, c1, c2, c3, z0, z1, z2, z3] := rfl
    rw [ht]
    by_cases hm : [m0, m1, m2, m3] = cartMagic
    · right
      refine ⟨⟨by simp [List.length_cons], hm⟩, be32 c0 c1 c2 c3, ?_⟩
      have hn : cartNumber (m0 :: m1 :: m2 :: m3 :: t0 :: t1 :: t2 :: t3 :: c0 :: c1 :: c2 :: c3 :: z0 :: z1 :: z2 :: z3 :: rest) = be32 t0 t1 t2 t3 := by
        show t0.toNat * 16777216 + t1.toNat * 65536 + t2.toNat * 256 + t3.toNat = _
        unfold be32 le32; omega
      rw [hn]
      simp only [CartHeader.decode]
      rw [if_neg (by simpa using hm)]
    · left
      refine ⟨fun h => hm h.2, ?_⟩
      simp only [CartHeader.decode]
      rw [if_pos hm]
  | [] | [_] | [_, _] | [_, _, _] | [_, _, _, _] | [_, _, _, _, _] | [_, _, _, _, _, _] | [_, _, _, _, _, _, _]
  | [_, _, _, _, _, _, _, _] | [_, _, _, _, _, _, _, _, _] | [_, _, _, _, _, _, _, _, _, _] | [_, _, _, _, _, _, _, _, _, _, _]
  | [_, _, _, _, _, _, _, _, _, _, _, _] | [_, _, _, _, _, _, _, _, _, _, _, _, _] | [_, _, _, _, _, _, _, _, _, _, _, _, _, _]
  | [_, _, _, _, _, _, _, _, _, _, _, _, _, _, _] =>
    exact .inl ⟨fun h => absurd h.1 (by simp), rfl⟩

theorem readCart_spec (data : Bytes) :
    (¬ HasCart data ∧ readCartHeader data = .ok {}) ∨
    (HasCart data ∧ (∀ c ∈ knownCarts, c.id ≠ cartNumber data) ∧ readCartHeader data = .error .invalidDiskImage) ∨
    (HasCart data ∧ ∃ c h, c ∈ knownCarts ∧ c.id = cartNumber data ∧ readCartHeader data = .ok h ∧ h.cartType = some (cartNumber data) ∧
      h.is5200 = c.is5200 ∧ h.headerOffset = 16) := by
  unfold readCartHeader
  rcases decode_spec data with ⟨h1, h2⟩ | ⟨h1, crc, h2⟩
  · rw [h2]; exact .inl ⟨h1, rfl⟩
  · rw [h2]
    rcases setType_spec crc 16 (cartNumber data) with ⟨c, h, k1, k2, k3, _, k5, _, k7, _, k9⟩ | ⟨k1, k2⟩
    · rw [k3]; exact .inr (.inr ⟨h1, c, h, k1, k2, rfl, k5, k7, k9⟩)
    · rw [k2]; exact .inr (.inl ⟨h1, k1, rfl⟩)

theorem checkSize_spec {data : Bytes} {h : CartHeader} {t : Nat} {c : CartType} (ht : h.cartType = some t) (hc : c ∈ knownCarts) (hid : c.id = t) :
    (data.length - h.headerOffset = c.size * 1024 ∧ cartCheckSize data h = .ok ()) ∨
    (data.length - h.headerOffset ≠ c.size * 1024 ∧ cartCheckSize data h = .error .invalidDiskImage) := by
  unfold cartCheckSize
  rw [ht]
  simp only
  rw [getCart_ok.mpr ⟨hc, hid⟩]
  simp only
  by_cases h1 : (data.length - h.headerOffset) % 1024 > 0
  · rw [if_pos h1]; exact .inr ⟨by omega, rfl⟩
  · rw [if_neg h1]
    by_cases h2 : (data.length - h.headerOffset) / 1024 ≠ c.size
    · rw [if_pos h2]; exact .inr ⟨by omega, rfl⟩
    · rw [if_neg h2]; exact .inl ⟨by omega, rfl⟩

theorem row_unique {c d : CartType} (hc : c ∈ knownCarts) (hd : d ∈ knownCarts) (h : c.id = d.id) : c = d := by
  have h1 : getCart c.id = .ok c := getCart_ok.mpr ⟨hc, rfl⟩
  have h2 : getCart c.id = .ok d := getCart_ok.mpr ⟨hd, h.symm⟩
  rw [h1] at h2
  injection h2

/-- all that construction of a cartridge image can give -/
theorem openCart_cases (data : Bytes) (t : Nat) :
    ((∀ c ∈ knownCarts, c.id ≠ t) ∧ openCart data t = .error .invalidDiskImage) ∨
    ((∃ c ∈ knownCarts, c.id = t) ∧
      ((¬ HasCart data ∧ openCart data t = .ok {}) ∨
       (HasCart data ∧ (∃ c ∈ knownCarts, c.id = cartNumber data ∧ data.length = 16 + c.size * 1024 ∧
          ∃ h, openCart data t = .ok h ∧ h.cartType = some (cartNumber data) ∧ h.is5200 = c.is5200 ∧ h.headerOffset = 16)) ∨
       (HasCart data ∧ (∀ c ∈ knownCarts, c.id = cartNumber data → data.length ≠ 16 + c.size * 1024) ∧
          openCart data t = .error .invalidDiskImage))) := by
  by_cases hk : ∃ c ∈ knownCarts, c.id = t
  · obtain ⟨c0, hc0, hid0⟩ := hk
    refine .inr ⟨⟨c0, hc0, hid0⟩, ?_⟩
    unfold openCart
    rw [getCart_ok.mpr ⟨hc0, hid0⟩]
    simp only
    rcases readCart_spec data with ⟨h1, h2⟩ | ⟨h1, h2, h3⟩ | ⟨h1, c, h, h2, h3, h4, h5, h6, h7⟩
    · rw [h2]; exact .inl ⟨h1, rfl⟩
    · rw [h3]; exact .inr (.inr ⟨h1, fun c hc he => absurd he (h2 c hc), rfl⟩)
    · rw [h4]
      simp only
      have hl := h1.1
      rcases checkSize_spec (data := data) h5 h2 h3 with ⟨k1, k2⟩ | ⟨k1, k2⟩
      · rw [k2]
        exact .inr (.inl ⟨h1, c, h2, h3, by rw [h7] at k1; omega, h, rfl, h5, h6, h7⟩)
      · rw [k2]
        refine .inr (.inr ⟨h1, fun d hd he => ?_, rfl⟩)
        rw [row_unique hd h2 (he.trans h3.symm)]
        rw [h7] at k1; omega
  · have hn : ∀ c ∈ knownCarts, c.id ≠ t := fun c hc he => hk ⟨c, hc, he⟩
    refine .inl ⟨hn, ?_⟩
    unfold openCart
    rw [getCart_error hn]

/-- **C65, strict.** A file is taken for a cartridge of type `t` of the 8-bit computers or of the 5200 exactly if it starts with a
`CART` header with that type number, the table has that type for that machine, and the header is followed by exactly as
many bytes as the table says. -/
theorem C65_strict_iff (data : Bytes) (t : Nat) (five : Bool) :
    (∃ h, openCart data t = .ok h ∧ cartStrictCheck h t five = .ok ()) ↔
      HasCart data ∧ cartNumber data = t ∧ ∃ c ∈ knownCarts, c.id = t ∧ c.is5200 = five ∧ data.length = 16 + c.size * 1024 := by
  rcases openCart_cases data t with ⟨h1, h2⟩ | ⟨⟨c0, hc0, hid0⟩, ⟨h1, h2⟩ | ⟨h1, c, hc, h2, h3, h, h4, h5, h6, h7⟩ | ⟨h1, h2, h3⟩⟩
  · rw [h2]
    exact ⟨fun ⟨h, k, _⟩ => (nomatch k), fun ⟨_, _, c, hc, hid, _⟩ => absurd hid (h1 c hc)⟩
  · rw [h2]
    refine ⟨fun ⟨h, k, ks⟩ => ?_, fun ⟨k, _⟩ => absurd k h1⟩
    injection k with k
    subst k
    unfold cartStrictCheck at ks
    split at ks <;> cases ks
  · rw [h4]
    constructor
    · rintro ⟨h', k, ks⟩
      injection k with k
      subst k
      unfold cartStrictCheck at ks
      rw [h5] at ks
      split at ks
      · cases ks
      · rename_i hf
        simp only at ks
        split at ks
        · cases ks
        · rename_i hne
          have hne : cartNumber data = t := Decidable.not_not.mp hne
          exact ⟨h1, hne, c, hc, h2.trans hne, by rw [← h6]; exact Decidable.not_not.mp hf, h3⟩
    · rintro ⟨_, hn, d, hd, hid, hfive, _⟩
      refine ⟨h, rfl, ?_⟩
      unfold cartStrictCheck
      have : d = c := row_unique hd hc (hid.trans (hn.symm.trans h2.symm))
      subst this
      rw [h6, hfive, h5, hn]
      simp
  · rw [h3]
    refine ⟨fun ⟨h, k, _⟩ => (nomatch k), fun ⟨_, hn, c, hc, hid, _, hl⟩ => absurd hl (h2 c hc (by rw [hid, hn]))⟩

/-- **C65, forced.** A cartridge type can be forced on a file exactly if the file has a header of that very type and the right
size, or has no header and is exactly as long as the table says. -/
theorem C65_forced_iff (data : Bytes) (t : Nat) :
    (∃ h h', openCart data t = .ok h ∧ cartRelaxedCheck data h t = .ok h') ↔
      ∃ c ∈ knownCarts, c.id = t ∧
        ((HasCart data ∧ cartNumber data = t ∧ data.length = 16 + c.size * 1024) ∨ (¬ HasCart data ∧ data.length = c.size * 1024)) := by
  rcases openCart_cases data t with ⟨h1, h2⟩ | ⟨⟨c0, hc0, hid0⟩, ⟨h1, h2⟩ | ⟨h1, c, hc, h2, h3, h, h4, h5, h6, h7⟩ | ⟨h1, h2, h3⟩⟩
  · rw [h2]
    exact ⟨fun ⟨h, _, k, _⟩ => (nomatch k), fun ⟨c, hc, hid, _⟩ => absurd hid (h1 c hc)⟩
  · rw [h2]
    have key : ∃ g, CartHeader.setType {} t = .ok g ∧ g.cartType = some t ∧ g.headerOffset = 0 := by
      rcases setType_spec 0 0 t with ⟨c, g, k1, k2, k3, _, k5, _, _, _, k9⟩ | ⟨k1, _⟩
      · exact ⟨g, k3, k5, k9⟩
      · exact absurd hid0 (k1 c0 hc0)
    obtain ⟨g, g1, g2, g3⟩ := key
    have hrel : cartRelaxedCheck data {} t = (match cartCheckSize data g with | .error e => .error e | .ok () => .ok g) := by
      unfold cartRelaxedCheck
      rw [if_pos (by simp), g1]
      simp only
      cases cartCheckSize data g <;> rfl
    rcases checkSize_spec (data := data) g2 hc0 hid0 with ⟨k1, k2⟩ | ⟨k1, k2⟩
    · rw [k2] at hrel
      rw [g3] at k1
      exact ⟨fun _ => ⟨c0, hc0, hid0, .inr ⟨h1, k1⟩⟩, fun _ => ⟨_, _, rfl, hrel⟩⟩
    · rw [k2] at hrel
      rw [g3] at k1
      constructor
      · rintro ⟨h', h'', e1, e2⟩
        injection e1 with e1
        subst e1
        rw [hrel] at e2
        cases e2
      · rintro ⟨d, hd, hid, ⟨hh, _⟩ | ⟨_, hl⟩⟩
        · exact absurd hh h1
        · rw [row_unique hd hc0 (hid.trans hid0.symm)] at hl
          exact absurd hl k1
  · rw [h4]
    by_cases ht : cartNumber data = t
    · have : c = c0 := row_unique hc hc0 (h2.trans (ht.trans hid0.symm))
      subst this
      refine ⟨fun _ => ⟨c, hc, hid0, .inl ⟨h1, ht, h3⟩⟩, fun _ => ⟨h, h, rfl, ?_⟩⟩
      unfold cartRelaxedCheck
      rw [if_neg (by rw [h5, ht]; simp)]
    · constructor
      · rintro ⟨h', h'', e1, e2⟩
        injection e1 with e1
        subst e1
        unfold cartRelaxedCheck at e2
        rw [if_pos (by rw [h5]; simpa using ht)] at e2
        rcases setType_spec 0 0 t with ⟨c', g, k1, k2, k3, _, k5, _, _, _, k9⟩ | ⟨k1, _⟩
        · rw [show CartHeader.setType {} t = .ok g from k3] at e2
          simp only at e2
          rcases checkSize_spec (data := data) k5 k1 k2 with ⟨j1, j2⟩ | ⟨j1, j2⟩
          · rw [k9] at j1; omega
          · rw [j2] at e2; cases e2
        · exact absurd hid0 (k1 c0 hc0)
      · rintro ⟨d, hd, hid, ⟨_, hn, _⟩ | ⟨hh, _⟩⟩
        · exact absurd hn ht
        · exact absurd h1 hh
  · rw [h3]
    refine ⟨fun ⟨h, _, k, _⟩ => (nomatch k), ?_⟩
    rintro ⟨d, hd, hid, ⟨_, hn, hl⟩ | ⟨hh, _⟩⟩
    · exact absurd hl (h2 d hd (by rw [hid, hn]))
    · exact absurd h1 hh

/-- **C65, errors.** A file that is no such cartridge is always refused with `InvalidDiskImage`, so that the search goes on with
the next format. -/
theorem C65_errors (data : Bytes) (t : Nat) (five : Bool) :
    (∀ e, openCart data t = .error e → e = .invalidDiskImage) ∧
    ∀ h, openCart data t = .ok h → (∀ e, cartStrictCheck h t five = .error e → e = .invalidDiskImage) ∧
      ∀ e, cartRelaxedCheck data h t = .error e → e = .invalidDiskImage := by
  constructor
  · intro e he
    rcases openCart_cases data t with ⟨h1, h2⟩ | ⟨_, ⟨h1, h2⟩ | ⟨h1, c, hc, h2, h3, h, h4, _⟩ | ⟨h1, h2, h3⟩⟩
    · rw [h2] at he; injection he with he; exact he.symm
    · rw [h2] at he; cases he
    · rw [h4] at he; cases he
    · rw [h3] at he; injection he with he; exact he.symm
  · intro h ho
    constructor
    · intro e he
      unfold cartStrictCheck at he
      split at he
      · injection he with he; exact he.symm
      · split at he
        · injection he with he; exact he.symm
        · split at he
          · injection he with he; exact he.symm
          · cases he
    · intro e he
      unfold cartRelaxedCheck at he
      split at he
      · rcases setType_spec 0 0 t with ⟨c', g, k1, k2, k3, _, k5, _, _, _, k9⟩ | ⟨k1, k2⟩
        · rw [show CartHeader.setType {} t = .ok g from k3] at he
          simp only at he
          rcases checkSize_spec (data := data) k5 k1 k2 with ⟨j1, j2⟩ | ⟨j1, j2⟩
          · rw [j2] at he; cases he
          · rw [j2] at he; injection he with he; exact he.symm
        · rw [show CartHeader.setType {} t = .error .invalidDiskImage from k2] at he
          injection he with he; exact he.symm
      · cases he

/-- at most one type and one machine fit a file strictly -/
theorem C65_unique {data : Bytes} {t t' : Nat} {five five' : Bool} {h h' : CartHeader} (h1 : openCart data t = .ok h)
    (h2 : cartStrictCheck h t five = .ok ()) (h3 : openCart data t' = .ok h') (h4 : cartStrictCheck h' t' five' = .ok ()) : t = t' ∧ five = five' := by
  obtain ⟨_, e1, c, hc, hi, hf, _⟩ := (C65_strict_iff data t five).mp ⟨h, h1, h2⟩
  obtain ⟨_, e2, d, hd, hj, hg, _⟩ := (C65_strict_iff data t' five').mp ⟨h', h3, h4⟩
  have ht : t = t' := e1.symm.trans e2
  refine ⟨ht, ?_⟩
  rw [← hf, ← hg, row_unique hc hd (by rw [hi, hj, ht])]

/-- a 4 KB 5200 cartridge (type 20): header and 4096 bytes -/
example : ∃ h, openCart ([0x43, 0x41, 0x52, 0x54, 0, 0, 0, 20, 1, 2, 3, 4, 0, 0, 0, 0] ++ List.replicate 4096 0xea) 20 = .ok h ∧
    cartStrictCheck h 20 true = .ok () :=
  (C65_strict_iff _ 20 true).mpr ⟨⟨by rw [List.length_append, List.length_replicate]; decide, by rfl⟩, by rfl,
    ⟨20, true, 4, [4, 0, 32768]⟩, by decide +kernel, rfl, rfl, by rw [List.length_append, List.length_replicate]; rfl⟩

/-! ### C66: banks in memory -/

/-- the memory a bank of `kb` KB at `origin` takes lies inside the cartridge area 0x4000-0xbfff -/
def InCartArea (origin kb : Nat) : Prop := 0x4000 ≤ origin ∧ origin + kb * 1024 ≤ 0xc000

instance (o k : Nat) : Decidable (InCartArea o k) := by unfold InCartArea; infer_instance

/-- **C66 (partial).** For every type of the table but 59 that has a memory layout there, the fixed bank and the switchable banks
appear inside the cartridge area 0x4000-0xbfff, the fixed bank and the bank window do not overlap, and next to switchable banks
the fixed bank ends at 0xbfff.  For the other types there are no banks and the address is 0. -/
theorem C66_memory_partial (t : Nat) (ht : t ≠ 59) (h : CartHeader) (hs : CartHeader.setType {} t = .ok h) :
    (h.mainOrigin = 0 ∧ h.banks = []) ∨
    (InCartArea h.mainOrigin h.mainSize ∧ (h.banks ≠ [] → InCartArea h.bankOrigin h.bankSize ∧
      (h.bankOrigin + h.bankSize * 1024 ≤ h.mainOrigin ∨ h.mainOrigin + h.mainSize * 1024 ≤ h.bankOrigin) ∧ h.mainOrigin + h.mainSize * 1024 = 0xc000)) := by
  have key : ∀ c ∈ knownCarts, c.id ≠ 59 → (match CartHeader.setType {} c.id with
      | .ok h => decide ((h.mainOrigin = 0 ∧ h.banks = []) ∨
          (InCartArea h.mainOrigin h.mainSize ∧ (h.banks ≠ [] → InCartArea h.bankOrigin h.bankSize ∧
            (h.bankOrigin + h.bankSize * 1024 ≤ h.mainOrigin ∨ h.mainOrigin + h.mainSize * 1024 ≤ h.bankOrigin) ∧
            h.mainOrigin + h.mainSize * 1024 = 0xc000)))
      | .error _ => false) = true := by decide +kernel
  rcases setType_spec 0 0 t with ⟨c, g, k1, k2, k3, _⟩ | ⟨_, k2⟩
  · have := key c k1 (by rw [k2]; exact ht)
    rw [k2, hs] at this
    exact of_decide_eq_true this
  · rw [show CartHeader.setType {} t = .error .invalidDiskImage from k2] at hs; cases hs

/-- **C66 is false for type 59**: the row of the table has one number too many, so the 4 KB appear at address 0 instead of 0x9000. -/
theorem C66_refuted : ∃ h, CartHeader.setType {} 59 = .ok h ∧ h.mainSize = 4 ∧ h.mainOrigin = 0 ∧ 0x9000 ∈ (knownCarts.filter (·.id == 59)).flatMap (·.rest) :=
  ⟨_, rfl, rfl, rfl, by decide +kernel⟩

/-- the numbers 0 to 67 are all there are, each once; the 5200 has six of them; all sizes are powers of two KB, but for the
two 40 KB cartridges and the 0 of the unknown type -/
theorem C66_table : (∀ t, (∃ c ∈ knownCarts, c.id = t) ↔ t < 68) ∧ (∀ c ∈ knownCarts, c.is5200 = true ↔ c.id ∈ [4, 6, 7, 16, 19, 20]) ∧
    ∀ c ∈ knownCarts, (c.id = 0 ∧ c.size = 0) ∨ ((c.id = 7 ∨ c.id = 18) ∧ c.size = 40) ∨ ∃ k, 1 ≤ k ∧ k ≤ 17 ∧ c.size = 2 ^ k := by
  refine ⟨fun t => ⟨?_, ?_⟩, by decide +kernel, ?_⟩
  · have : ∀ c ∈ knownCarts, c.id < 68 := by decide +kernel
    rintro ⟨c, hc, rfl⟩
    exact this c hc
  · have : ∀ t, t < 68 → t ∈ knownCarts.map (·.id) := by decide +kernel
    intro ht
    obtain ⟨c, hc, he⟩ := List.mem_map.mp (this t ht)
    exact ⟨c, hc, he⟩
  · have : ∀ c ∈ knownCarts, (c.id = 0 ∧ c.size = 0) ∨ ((c.id = 7 ∨ c.id = 18) ∧ c.size = 40) ∨ ∃ k, k < 18 ∧ (1 ≤ k ∧ c.size = 2 ^ k) := by
      decide +kernel
    intro c hc
    rcases this c hc with h | h | ⟨k, h1, h2, h3⟩
    · exact .inl h
    · exact .inr (.inl h)
    · exact .inr (.inr ⟨k, h2, by omega, h3⟩)

/-- XEGS 32 KB: fixed bank at 0xa000, banks at 0x8000 -/
example : (CartHeader.setType {} 12).toOption.map (fun h => (h.mainOrigin, h.bankOrigin, h.banks)) = some (0xa000, 0x8000, [0, 8, 16]) := by decide +kernel

end Atr
