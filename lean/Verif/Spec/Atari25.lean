import Verif.Spec.Atari
/-!
# Enhanced density disks of Atari DOS 2.5

DOS 2.5 keeps the allocation bits of the sectors 720-1023 in sector 1024 (bytes 84-121, the first bit is sector 720; the code
describes this sector in the comments of ataridos.py:623-630).  The directory entry of a file that has a sector above 719
has the flag 3 instead of the bit 6, so that DOS 2.0 does not touch the file.
-/
namespace Atr

/-- Sector `s` is marked free by DOS 2.5. -/
def IsFree25 (h : AHeader) (b : Bytes) (s : Nat) : Prop :=
  if s < 720 then IsFree h b s else (unpackbits (slice (sec h b 1024) 84 122))[s - 720]? = some true

/-- the entry is a file for DOS 2.5 -/
def ADirent.isFile25 (d : ADirent) : Prop := d.flag.toNat.testBit 6 = true ∨ d.flag = 3

/-- the entries DOS 2.5 lists under a name, among the entries of the directory -/
def entries25 (ds : List ADirent) (name : Bytes) : Prop := ∃ d ∈ ds, d.isFile25 ∧ d.filename = name

end Atr
