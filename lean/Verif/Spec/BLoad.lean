import Verif.Spec.AtariNames
import Verif.Spec.Cpu6502
/-!
# Binary load of Atari DOS 2

The file is found by its name.  The entry says in which sector it begins, and the last three bytes of every sector have the number of
the file, the next sector (0 at the end) and the number of bytes in the sector.  The file begins with two bytes 0xff.  Then come
segments: the first address, the last address, the bytes; in front of a segment there may be two bytes 0xff.  After every segment the
routine at the address in 0x2e2 is called, and at the end the one at the address in 0x2e0; DOS has put the address of a routine that
does nothing there.
-/
namespace Atr

/-- entry `i` is the first one with the name `x` -/
def DosOpens (entries : List Bytes) (x : Bytes) (i : Nat) (e : Bytes) : Prop :=
  entries[i]? = some e ∧ (e.getD 0 0).toNat.testBit 6 = true ∧ slice e 5 16 = x ∧
  ∀ (j : Nat) (f : Bytes), j < i → entries[j]? = some f → f.head? ≠ some 0 ∧ ¬ ((f.getD 0 0).toNat.testBit 6 = true ∧ slice f 5 16 = x)

/-- byte `k` of a sector -/
def sectorByte (h : AHeader) (b : Bytes) (s k : Nat) : Nat := ((sec h b s).getD k 0).toNat

/-- file number `num` from sector `s` on has the bytes `x` -/
inductive DosReads (h : AHeader) (b : Bytes) (num : Nat) : Nat → Bytes → Prop
  | done : DosReads h b num 0 []
  | sector {s : Nat} {x : Bytes} (hs : s ≠ 0) (hn : sectorByte h b s (h.sectorSize - 3) / 4 = num)
      (hc : sectorByte h b s (h.sectorSize - 1) + 3 ≤ h.sectorSize)
      (next : DosReads h b num (sectorByte h b s (h.sectorSize - 3) % 4 * 256 + sectorByte h b s (h.sectorSize - 2)) x) :
      DosReads h b num s ((sec h b s).take (sectorByte h b s (h.sectorSize - 1)) ++ x)

/-- the call after a segment: nothing happens if 0x2e2 still has the address `back`; otherwise the routine there turns the memory `m`
into some `m1`, and `back` is put into 0x2e2 again -/
def AfterSegment (init : Nat → (Nat → UInt8) → (Nat → UInt8) → Prop) (back : Nat) (m m' : Nat → UInt8) : Prop :=
  (word (m 0x2e2) (m 0x2e3) = back ∧ m' = m) ∨
  (word (m 0x2e2) (m 0x2e3) ≠ back ∧ ∃ m1, init (word (m 0x2e2) (m 0x2e3)) m m1 ∧ m' = loadSeg m1 ⟨0x2e2, enc16 back⟩)

/-- loading the bytes of a file, `init a m m'` says what the routine at `a` does to the memory -/
inductive BinLoads (init : Nat → (Nat → UInt8) → (Nat → UInt8) → Prop) (back : Nat) : Bytes → (Nat → UInt8) → (Nat → UInt8) → Prop
  | done (m : Nat → UInt8) : BinLoads init back [] m m
  | marker {x : Bytes} {m m' : Nat → UInt8} (h : BinLoads init back x m m') : BinLoads init back (0xff :: 0xff :: x) m m'
  | segment {s0 s1 e0 e1 : UInt8} {d x : Bytes} {m m1 m' : Nat → UInt8} (hs : word s0 s1 ≠ 0xffff) (hd : d ≠ [])
      (he : word s0 s1 + d.length = word e0 e1 + 1) (ha : AfterSegment init back (loadSeg m ⟨word s0 s1, d⟩) m1)
      (h : BinLoads init back x m1 m') : BinLoads init back (s0 :: s1 :: e0 :: e1 :: (d ++ x)) m m'

/-- loading segments one after the other, with the call after each of them -/
inductive SegLoads (init : Nat → (Nat → UInt8) → (Nat → UInt8) → Prop) (back : Nat) : List Seg → (Nat → UInt8) → (Nat → UInt8) → Prop
  | nil (m : Nat → UInt8) : SegLoads init back [] m m
  | cons {s : Seg} {l : List Seg} {m m1 m' : Nat → UInt8} (ha : AfterSegment init back (loadSeg m s) m1) (h : SegLoads init back l m1 m') :
      SegLoads init back (s :: l) m m'

/-- Atari DOS loads the file with the name `x` of 11 bytes and then calls the routine at `pc` -/
def BLoads (h : AHeader) (b x : Bytes) (init : Nat → (Nat → UInt8) → (Nat → UInt8) → Prop) (back : Nat) (m m' : Nat → UInt8) (pc : Nat) : Prop :=
  ∃ i e d, DosOpens (rawEntries h b) x i e ∧ DosReads h b i (word (e.getD 3 0) (e.getD 4 0)) (0xff :: 0xff :: d) ∧
    BinLoads init back d (loadSeg m ⟨0x2e0, enc16 back ++ enc16 back⟩) m' ∧ pc = word (m' 0x2e0) (m' 0x2e1)

end Atr
