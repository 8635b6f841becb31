import Verif.Spec.Crc
import Verif.Model.Display
/-!
# C88: what the printed checksums say about files

The register of `crc32` is compared with the residues of `Spec/Crc`; then linearity and injectivity of one step give which changes are noticed, and that
four bytes suffice to give a file any checksum.
-/
namespace Atr

/-! ### one bit -/

/-- a bit as a register -/
def bitReg (c : Bool) : BitVec 32 := if c then 1#32 else 0#32

/-- one bit of a file -/
def crcStep (s : BitVec 32) (c : Bool) : BitVec 32 := crcBit (s ^^^ bitReg c)

/-- `n` steps without input -/
def crcSteps : Nat → BitVec 32 → BitVec 32
  | 0, s => s
  | n + 1, s => crcSteps n (crcBit s)

theorem bitReg_get (c : Bool) (i : Nat) : (bitReg c).getLsbD i = (decide (i = 0) && c) := by
  cases c
  · simp [bitReg]
  · cases i <;> simp [bitReg]

theorem crcBit_get (s : BitVec 32) (i : Nat) : (crcBit s).getLsbD i = (s.getLsbD (i + 1) ^^ (s.getLsbD 0 && (0xedb88320#32).getLsbD i)) := by
  unfold crcBit
  cases h : s.getLsbD 0 with
  | false => simp [Nat.add_comm]
  | true =>
    simp only [Bool.true_and, if_true]
    rw [BitVec.getLsbD_xor, BitVec.getLsbD_ushiftRight, Nat.add_comm]

theorem crcBit_xor (a b : BitVec 32) : crcBit (a ^^^ b) = crcBit a ^^^ crcBit b := by
  refine BitVec.eq_of_getLsbD_eq fun i _ => ?_
  rw [BitVec.getLsbD_xor, crcBit_get, crcBit_get, crcBit_get, BitVec.getLsbD_xor, BitVec.getLsbD_xor]
  cases a.getLsbD (i + 1) <;> cases b.getLsbD (i + 1) <;> cases a.getLsbD 0 <;> cases b.getLsbD 0 <;> cases (0xedb88320#32).getLsbD i <;> rfl

/-- the register before a step -/
def crcUnbit (t : BitVec 32) : BitVec 32 := if t.getLsbD 31 then ((t ^^^ 0xedb88320#32) <<< 1) ^^^ 1#32 else t <<< 1

theorem crcBit_unbit (t : BitVec 32) : crcBit (crcUnbit t) = t := by
  refine BitVec.eq_of_getLsbD_eq fun i hi => ?_
  rw [crcBit_get]
  unfold crcUnbit
  cases h : t.getLsbD 31 with
  | false =>
    simp only [Bool.false_eq_true, if_false, BitVec.getLsbD_shiftLeft]
    by_cases h31 : i = 31
    · subst h31; rw [h]; simp
    · have : i + 1 < 32 := by omega
      simp [this]
  | true =>
    simp only [if_true, BitVec.getLsbD_xor, BitVec.getLsbD_shiftLeft]
    by_cases h31 : i = 31
    · subst h31; simp [h]
    · have h1 : i + 1 < 32 := by omega
      simp [h1]

theorem crcBit_inj {a b : BitVec 32} (h : crcBit a = crcBit b) : a = b := by
  have hz : crcBit (a ^^^ b) = 0#32 := by rw [crcBit_xor, h, BitVec.xor_self]
  have hb : ∀ i, (a ^^^ b).getLsbD (i + 1) = ((a ^^^ b).getLsbD 0 && (0xedb88320#32).getLsbD i) := fun i => by
    have := congrArg (fun s => s.getLsbD i) hz
    simp only [crcBit_get, BitVec.getLsbD_zero] at this
    exact (show ∀ a b : Bool, (a ^^ b) = false → a = b by decide) _ _ this
  have h0 : (a ^^^ b).getLsbD 0 = false := by
    have := hb 31
    rw [BitVec.getLsbD_of_ge _ 32 (by omega)] at this
    simpa using this.symm
  refine BitVec.eq_of_getLsbD_eq fun i _ => ?_
  have : (a ^^^ b).getLsbD i = false := by
    cases i with
    | zero => exact h0
    | succ i => rw [hb, h0]; rfl
  rw [BitVec.getLsbD_xor] at this
  simpa using this

theorem crcSteps_inj : ∀ (n : Nat) {a b : BitVec 32}, crcSteps n a = crcSteps n b → a = b
  | 0, _, _, h => h
  | n + 1, _, _, h => crcBit_inj (crcSteps_inj n h)

theorem crcSteps_surj : ∀ (n : Nat) (t : BitVec 32), ∃ s, crcSteps n s = t
  | 0, t => ⟨t, rfl⟩
  | n + 1, t => by
    obtain ⟨s, hs⟩ := crcSteps_surj n t
    exact ⟨crcUnbit s, by rw [crcSteps, crcBit_unbit, hs]⟩

/-! ### up to 32 bits at once -/

/-- up to 32 bits as a register, the first bit lowest -/
def wordOf : List Bool → BitVec 32
  | [] => 0#32
  | c :: w => (wordOf w <<< 1) ^^^ bitReg c

theorem wordOf_get (w : List Bool) : ∀ i, i < 32 → (wordOf w).getLsbD i = w.getD i false := by
  induction w with
  | nil => intro i _; simp [wordOf]
  | cons c w ih =>
    intro i hi
    rw [wordOf, BitVec.getLsbD_xor, BitVec.getLsbD_shiftLeft, bitReg_get]
    cases i with
    | zero => simp
    | succ i => simp [hi, ih i (by omega)]

theorem crcBit_shift {x : BitVec 32} (h : x.getLsbD 31 = false) : crcBit (x <<< 1) = x := by
  refine BitVec.eq_of_getLsbD_eq fun i hi => ?_
  rw [crcBit_get, BitVec.getLsbD_shiftLeft, BitVec.getLsbD_shiftLeft]
  by_cases h31 : i = 31
  · subst h31; rw [h]; simp
  · have : i + 1 < 32 := by omega
    simp [this]

theorem crcStep_word (w : List Bool) : ∀ s, w.length ≤ 32 → w.foldl crcStep s = crcSteps w.length (s ^^^ wordOf w) := by
  induction w with
  | nil => intro s _; show s = s ^^^ 0#32; rw [BitVec.xor_zero]
  | cons c w ih =>
    intro s hw
    rw [List.length_cons] at hw
    rw [List.foldl_cons, ih _ (by omega), List.length_cons, crcSteps, wordOf]
    congr 1
    have h31 : (wordOf w).getLsbD 31 = false := by
      rw [wordOf_get w 31 (by omega), List.getD_eq_getElem?_getD, List.getElem?_eq_none (by omega)]; rfl
    rw [BitVec.xor_comm (wordOf w <<< 1), ← BitVec.xor_assoc, crcBit_xor, crcBit_shift h31]
    rfl

theorem bitsOf_length (b : UInt8) : (bitsOf b).length = 8 := by simp [bitsOf]

theorem wordOf_byte (b : UInt8) : wordOf (bitsOf b) = BitVec.ofNat 32 b.toNat := by
  refine BitVec.eq_of_getLsbD_eq fun i hi => ?_
  rw [wordOf_get _ i hi, BitVec.getLsbD_ofNat]
  unfold bitsOf
  rw [List.getD_eq_getElem?_getD, List.getElem?_map]
  by_cases h : i < 8
  · rw [List.getElem?_range h]; simp [hi]
  · rw [List.getElem?_eq_none (by simp; omega)]
    have : b.toNat.testBit i = false := Nat.testBit_lt_two_pow (Nat.lt_of_lt_of_le (UInt8.toNat_lt b) (Nat.pow_le_pow_right (by omega) (show 8 ≤ i by omega)))
    simp [this]

theorem crcByte_bits (s : BitVec 32) (b : UInt8) : crcByte s b = (bitsOf b).foldl crcStep s := by
  rw [crcStep_word _ _ (by rw [bitsOf_length]; omega), bitsOf_length, wordOf_byte]
  rfl

/-- the bits of a file, in the order in which the checksum takes them -/
theorem crcFold_bits (f : Bytes) : ∀ s, f.foldl crcByte s = (f.flatMap bitsOf).foldl crcStep s := by
  induction f with
  | nil => intro s; rfl
  | cons b f ih => intro s; rw [List.foldl_cons, List.flatMap_cons, List.foldl_append, ih, crcByte_bits]

/-! ### the polynomial -/

theorem generator_bits : ∀ k, k < 32 → (0xedb88320#32).getLsbD (31 - k) = crcExponents.contains k := by decide +kernel

theorem residue_bits (w : List Bool) : ∀ (s : BitVec 32) (p : Nat → Bool), (∀ k, k < 32 → p k = s.getLsbD (31 - k)) →
    ∀ k, k < 32 → residue p w k = (w.foldl crcStep s).getLsbD (31 - k) := by
  induction w with
  | nil => intro s p h; exact h
  | cons c w ih =>
    intro s p h
    rw [residue, List.foldl_cons]
    refine ih _ _ fun k hk => ?_
    unfold timesX crcStep
    simp only
    rw [crcBit_get, generator_bits k hk, BitVec.getLsbD_xor, BitVec.getLsbD_xor, bitReg_get, bitReg_get, h 31 (by omega)]
    by_cases h0 : k = 0
    · subst h0
      rw [BitVec.getLsbD_of_ge _ (31 - 0 + 1) (by omega)]
      simp
    · have e : 31 - (k - 1) = 31 - k + 1 := by omega
      have e2 : (k - 1 == 31) = false := by simp; omega
      rw [h (k - 1) (by omega), e, e2]
      simp [hk, Nat.pos_of_ne_zero h0]

/-- **C88, the value.** The checksum that `list -c` and `crc` print is CRC-32: its bits, from the highest, are the complements of the coefficients, from the lowest, of
the residue of the file as a polynomial (with 32 ones added in front), times x³², by the generator. -/
theorem C88_residue (f : Bytes) (k : Nat) (hk : k < 32) : (crc32 f).testBit (31 - k) = !residue (fun _ => true) (f.flatMap bitsOf) k := by
  have h := residue_bits (f.flatMap bitsOf) 0xffffffff#32 (fun _ => true)
    (fun k hk => (show ∀ k, k < 32 → true = (0xffffffff#32).getLsbD (31 - k) by decide +kernel) k hk) k hk
  unfold crc32
  rw [h, crcFold_bits]
  show BitVec.getLsbD _ _ = _
  rw [BitVec.getLsbD_xor, show (0xffffffff#32).getLsbD (31 - k) = true from
    (show ∀ k, k < 32 → (0xffffffff#32).getLsbD (31 - k) = true by decide +kernel) k hk, Bool.xor_true]

/-! ### what is noticed -/

theorem crcStep_foldl_inj (q : List Bool) : ∀ {a b : BitVec 32}, q.foldl crcStep a = q.foldl crcStep b → a = b := by
  induction q with
  | nil => exact fun h => h
  | cons c q ih =>
    intro a b h
    have := crcBit_inj (ih h)
    have h2 := congrArg (· ^^^ bitReg c) this
    simpa [BitVec.xor_assoc] using h2

theorem crc32_inj {f g : Bytes} (h : crc32 f = crc32 g) : f.foldl crcByte 0xffffffff#32 = g.foldl crcByte 0xffffffff#32 := by
  have := congrArg (· ^^^ 0xffffffff#32) (BitVec.eq_of_toNat_eq h)
  simpa only [BitVec.xor_assoc, BitVec.xor_self, BitVec.xor_zero] using this

theorem wordOf_inj {u v : List Bool} (hl : u.length = v.length) (h32 : u.length ≤ 32) (h : wordOf u = wordOf v) : u = v := by
  refine List.ext_getElem hl fun i h1 h2 => ?_
  have := congrArg (fun s => s.getLsbD i) h
  simp only [wordOf_get _ i (show i < 32 by omega), List.getD_eq_getElem?_getD, List.getElem?_eq_getElem h1, List.getElem?_eq_getElem h2] at this
  exact this

theorem bitsOf_inj {a b : UInt8} (h : bitsOf a = bitsOf b) : a = b := by
  have := congrArg wordOf h
  rw [wordOf_byte, wordOf_byte] at this
  have := congrArg BitVec.toNat this
  rw [BitVec.toNat_ofNat, BitVec.toNat_ofNat, Nat.mod_eq_of_lt (by have := UInt8.toNat_lt a; omega), Nat.mod_eq_of_lt (by have := UInt8.toNat_lt b; omega)] at this
  exact UInt8.toNat_inj.mp this

theorem bits_inj : ∀ {f g : Bytes}, f.flatMap bitsOf = g.flatMap bitsOf → f = g
  | [], [], _ => rfl
  | [], b :: g, h => by
    have := congrArg List.length h
    rw [List.flatMap_cons, List.length_append, bitsOf_length, List.flatMap_nil, List.length_nil] at this
    omega
  | a :: f, [], h => by
    have := congrArg List.length h
    rw [List.flatMap_cons, List.length_append, bitsOf_length, List.flatMap_nil, List.length_nil] at this
    omega
  | a :: f, b :: g, h => by
    rw [List.flatMap_cons, List.flatMap_cons] at h
    obtain ⟨h1, h2⟩ := List.append_inj h (by rw [bitsOf_length, bitsOf_length])
    rw [bitsOf_inj h1, bits_inj h2]

/-- **C88, changes that are noticed.** Two different files whose bits differ only inside a window of 32 bits have different checksums. -/
theorem C88_burst {f g : Bytes} {p u v q : List Bool} (hf : f.flatMap bitsOf = p ++ u ++ q) (hg : g.flatMap bitsOf = p ++ v ++ q)
    (hl : u.length = v.length) (h32 : u.length ≤ 32) (h : crc32 f = crc32 g) : f = g := by
  have h := crc32_inj h
  rw [crcFold_bits, crcFold_bits, hf, hg, List.foldl_append, List.foldl_append, List.foldl_append, List.foldl_append] at h
  have h := crcStep_foldl_inj q h
  rw [crcStep_word u _ h32, crcStep_word v _ (by omega), ← hl] at h
  have h := crcSteps_inj _ h
  have h2 := congrArg (p.foldl crcStep 0xffffffff#32 ^^^ ·) h
  simp only [← BitVec.xor_assoc, BitVec.xor_self, BitVec.zero_xor] at h2
  have := wordOf_inj hl h32 h2
  exact bits_inj (by rw [hf, hg, this])

theorem flatMap_bits_length (f : Bytes) : (f.flatMap bitsOf).length = 8 * f.length := by
  induction f with
  | nil => rfl
  | cons b f ih => rw [List.flatMap_cons, List.length_append, bitsOf_length, ih, List.length_cons]; omega

/-- **C88, four bytes.** Replacing up to four consecutive bytes by as many others changes the checksum. -/
theorem C88_bytes {p s s' q : Bytes} (hl : s.length = s'.length) (h4 : s.length ≤ 4) (h : crc32 (p ++ s ++ q) = crc32 (p ++ s' ++ q)) : s = s' := by
  have := C88_burst (f := p ++ s ++ q) (g := p ++ s' ++ q) (p := p.flatMap bitsOf) (u := s.flatMap bitsOf) (v := s'.flatMap bitsOf) (q := q.flatMap bitsOf)
    (by simp only [List.flatMap_append]) (by simp only [List.flatMap_append]) (by rw [flatMap_bits_length, flatMap_bits_length, hl])
    (by rw [flatMap_bits_length]; omega) h
  exact List.append_cancel_left (List.append_cancel_right this)

/-! ### what is not noticed -/

/-- the bytes of a register, lowest first -/
def regBytes (x : BitVec 32) : Bytes := (List.range 4).map fun i => UInt8.ofNat (x.toNat >>> (8 * i))

theorem bitsOf_getD (b : UInt8) {i : Nat} (h : i < 8) : (bitsOf b).getD i false = b.toNat.testBit i := by
  unfold bitsOf
  rw [List.getD_eq_getElem?_getD, List.getElem?_map, List.getElem?_range h]
  rfl

theorem bits_getD (f : Bytes) : ∀ i, i < 8 * f.length → (f.flatMap bitsOf).getD i false = (f.getD (i / 8) 0).toNat.testBit (i % 8) := by
  induction f with
  | nil => intro i hi; simp at hi
  | cons b f ih =>
    intro i hi
    rw [List.length_cons] at hi
    rw [List.flatMap_cons, List.getD_eq_getElem?_getD]
    by_cases h : i < 8
    · rw [List.getElem?_append_left (by rw [bitsOf_length]; exact h), ← List.getD_eq_getElem?_getD, bitsOf_getD b h, show i / 8 = 0 by omega,
        show i % 8 = i by omega]
      rfl
    · rw [List.getElem?_append_right (by rw [bitsOf_length]; omega), ← List.getD_eq_getElem?_getD, bitsOf_length, ih (i - 8) (by omega),
        show i / 8 = (i - 8) / 8 + 1 by omega, show (i - 8) % 8 = i % 8 by omega]
      rfl

theorem regBytes_bits (x : BitVec 32) : wordOf ((regBytes x).flatMap bitsOf) = x := by
  refine BitVec.eq_of_getLsbD_eq fun i hi => ?_
  rw [wordOf_get _ i hi, bits_getD _ i (by show i < 8 * 4; omega)]
  have h4 : i / 8 < 4 := by omega
  unfold regBytes
  rw [List.getD_eq_getElem?_getD, List.getElem?_map, List.getElem?_range h4]
  show (UInt8.ofNat (x.toNat >>> (8 * (i / 8)))).toNat.testBit (i % 8) = _
  rw [UInt8.toNat_ofNat', Nat.testBit_mod_two_pow, Nat.testBit_shiftRight, show 8 * (i / 8) + i % 8 = i by omega]
  simp [show i % 8 < 8 by omega, BitVec.getLsbD]

/-- **C88, any checksum.** To every file there are four bytes, and only one choice of them, that appended to the file give it a checksum chosen beforehand. -/
theorem C88_forge (f : Bytes) (t : Nat) (ht : t < 2 ^ 32) : ∃ s : Bytes, s.length = 4 ∧ crc32 (f ++ s) = t ∧
    ∀ s' : Bytes, s'.length = 4 → crc32 (f ++ s') = t → s' = s := by
  obtain ⟨x, hx⟩ := crcSteps_surj 32 (BitVec.ofNat 32 t ^^^ 0xffffffff#32)
  have hl : ((regBytes (f.foldl crcByte 0xffffffff#32 ^^^ x)).flatMap bitsOf).length = 32 := by
    rw [flatMap_bits_length]; rfl
  have forged : crc32 (f ++ regBytes (f.foldl crcByte 0xffffffff#32 ^^^ x)) = t := by
    unfold crc32
    rw [List.foldl_append, crcFold_bits (regBytes _), crcStep_word _ _ (by omega), hl, regBytes_bits, ← BitVec.xor_assoc, BitVec.xor_self, BitVec.zero_xor, hx,
      BitVec.xor_assoc, BitVec.xor_self, BitVec.xor_zero, BitVec.toNat_ofNat, Nat.mod_eq_of_lt ht]
  refine ⟨regBytes (f.foldl crcByte 0xffffffff#32 ^^^ x), rfl, forged, ?_⟩
  · intro s' h4 h'
    refine C88_bytes (p := f) (q := []) h4 (by omega) ?_
    rw [List.append_nil, List.append_nil, h', forged]

/-- **C88, equal checksums.** Equal checksums do not mean equal contents: any two different files of the same length get the same checksum when four bytes
are added to each. -/
theorem C88_refuted (f g : Bytes) (hfg : f ≠ g) (hl : f.length = g.length) : ∃ s s' : Bytes, s.length = 4 ∧ s'.length = 4 ∧ f ++ s ≠ g ++ s' ∧
    crc32 (f ++ s) = crc32 (g ++ s') := by
  obtain ⟨s, h1, h2, -⟩ := C88_forge f 0 (by decide)
  obtain ⟨s', h3, h4, -⟩ := C88_forge g 0 (by decide)
  exact ⟨s, s', h1, h3, fun h => hfg (List.append_inj h hl).1, by rw [h2, h4]⟩

theorem crcByte_xor (s t : BitVec 32) (a b : UInt8) : crcByte (s ^^^ t) (a ^^^ b) = crcByte s a ^^^ crcByte t b := by
  have hx : s ^^^ t ^^^ BitVec.ofNat 32 (a ^^^ b).toNat = (s ^^^ BitVec.ofNat 32 a.toNat) ^^^ (t ^^^ BitVec.ofNat 32 b.toNat) := by
    refine BitVec.eq_of_getLsbD_eq fun i hi => ?_
    simp only [BitVec.getLsbD_xor, BitVec.getLsbD_ofNat, UInt8.toNat_xor, Nat.testBit_xor, hi, decide_true, Bool.true_and]
    cases s.getLsbD i <;> cases t.getLsbD i <;> cases a.toNat.testBit i <;> cases b.toNat.testBit i <;> rfl
  unfold crcByte
  rw [hx]
  simp only [crcBit_xor]

theorem crcFold_xor : ∀ (d e : Bytes) (s t : BitVec 32), d.length = e.length →
    (List.zipWith (· ^^^ ·) d e).foldl crcByte (s ^^^ t) = d.foldl crcByte s ^^^ e.foldl crcByte t
  | [], [], _, _, _ => rfl
  | [], _ :: _, _, _, h => by simp at h
  | _ :: _, [], _, _, h => by simp at h
  | a :: d, b :: e, s, t, h => by
    rw [List.zipWith_cons_cons, List.foldl_cons, List.foldl_cons, List.foldl_cons, crcByte_xor]
    exact crcFold_xor d e _ _ (by simpa using h)

/-- **C88, the window.** A window of 33 bits is too long: in every file, at every place, five bytes can be replaced by others that differ in a pattern of 33 bits
(those of the generator) without changing the checksum. -/
theorem C88_window (p d q : Bytes) (hd : d.length = 5) :
    crc32 (p ++ List.zipWith (· ^^^ ·) d [0x41, 0x06, 0x71, 0xdb, 0x01] ++ q) = crc32 (p ++ d ++ q) ∧ List.zipWith (· ^^^ ·) d [0x41, 0x06, 0x71, 0xdb, 0x01] ≠ d := by
  constructor
  · have h := crcFold_xor d [0x41, 0x06, 0x71, 0xdb, 0x01] (p.foldl crcByte 0xffffffff#32) 0#32 hd
    rw [BitVec.xor_zero, show ([0x41, 0x06, 0x71, 0xdb, 0x01] : Bytes).foldl crcByte 0#32 = 0#32 by decide +kernel, BitVec.xor_zero] at h
    unfold crc32
    rw [List.foldl_append, List.foldl_append, List.foldl_append, List.foldl_append, h]
  · match d, hd with
    | [a, b, c, d, e], _ =>
      intro h
      have h := congrArg (· ^^^ a) (List.cons.inj h).1
      simp only [UInt8.xor_comm a, UInt8.xor_assoc, UInt8.xor_self, UInt8.xor_zero] at h
      exact absurd h (by decide)

/-! ### cases -/

/-- the checksum of the empty file is zero: all ones, complemented -/
example : crc32 [] = 0 ∧ residue (fun _ => true) [] 5 = true := by decide +kernel

/-- two files of five bytes that differ in 33 bits and have the same checksum -/
example : crc32 [0, 0, 0, 0, 0] = crc32 [0x41, 0x06, 0x71, 0xdb, 0x01] := by decide +kernel

/-- the four bytes that give an empty file the checksum 0xdeadbeef -/
example : ∃ s : Bytes, s.length = 4 ∧ crc32 s = 0xdeadbeef := by
  obtain ⟨s, h1, h2, -⟩ := C88_forge [] 0xdeadbeef (by decide)
  exact ⟨s, h1, h2⟩

end Atr
