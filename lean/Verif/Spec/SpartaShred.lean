import Verif.Spec.Sparta
import Verif.Spec.Detect
/-!
# The bitmap of a SpartaDOS disk, independently of the code that reads it

The boot record names the first sector of the bitmap (word at 16) and how many sectors it takes (byte 15).  Sector `s` of the disk
is free if bit `s` of the bitmap is set, counting from the highest bit of the first byte.
-/
namespace Atr

/-- contents of the sectors of the bitmap -/
def spartaBitmap (h : AHeader) (b : Bytes) : Bytes := (List.range' (bootWord h b 16) (bootByte h b 15)).flatMap (sectorBytes h b)

/-- sector `s` is free according to the bitmap -/
def SpartaFree (h : AHeader) (b : Bytes) (s : Nat) : Prop := ((spartaBitmap h b).getD (s / 8) 0).toNat / 2 ^ (7 - s % 8) % 2 = 1

instance (h : AHeader) (b : Bytes) (s : Nat) : Decidable (SpartaFree h b s) := by unfold SpartaFree; infer_instance

/-- The bitmap is on the disk, after the boot record and any short sectors, and has at least 100 bytes (800 sectors). -/
def BitmapOk (h : AHeader) (b : Bytes) : Prop :=
  h.numInitialSectors < bootWord h b 16 ∧ 2 ≤ bootWord h b 16 ∧ bootWord h b 16 + bootByte h b 15 ≤ h.maxSectors + 1 ∧
    100 ≤ bootByte h b 15 * h.sectorSize

/-- byte `k` of the image belongs to sector `s` -/
def InSector (h : AHeader) (s k : Nat) : Prop := ∃ p c, h.getPos s = .ok (p, c) ∧ p ≤ k ∧ k < p + c

/-- `b'` is `b` with the sectors in `F` filled with zeros and nothing else changed -/
def Clears (h : AHeader) (F : Nat → Prop) (b b' : Bytes) : Prop :=
  b'.length = b.length ∧ (∀ s, 1 ≤ s → s ≤ h.maxSectors → F s → ∀ k, InSector h s k → b'.getD k 0 = 0) ∧
    ∀ k, (∀ s, 1 ≤ s → s ≤ h.maxSectors → F s → ¬ InSector h s k) → b'.getD k 0 = b.getD k 0

end Atr
