import Verif.Spec.Atari
/-!
# How Atari DOS finds a file

The name in a directory entry has 11 bytes, eight for the name and three for the extension, each padded with blanks.  Atari DOS
compares all of them, from the first entry up to one with the flag 0; an entry in use has the bit 6.
-/
namespace Atr

/-- the 11 bytes of a name -/
def dosName (base ext : Bytes) : Bytes :=
  base ++ List.replicate (8 - base.length) 32 ++ (ext ++ List.replicate (3 - ext.length) 32)

/-- the entries have a file with the name `x` of 11 bytes -/
def DosFinds (entries : List Bytes) (x : Bytes) : Prop :=
  ∃ (i : Nat) (e : Bytes), entries[i]? = some e ∧ (∀ (j : Nat) (f : Bytes), j < i → entries[j]? = some f → f.head? ≠ some 0) ∧
    (e.getD 0 0).toNat.testBit 6 = true ∧ slice e 5 16 = x

/-- Atari DOS finds the file on the disk -/
def AImg.DosHas (m : AImg) (base ext : Bytes) : Prop := DosFinds (rawEntries m.hdr m.bytes) (dosName base ext)

end Atr
