import Verif.Spec.Atari
/-!
# Files of MyDOS

MyDOS ends every sector of a file with the number of the next sector, high byte first, and the number of data bytes; the sector
number 0 ends the file.  There is no file number, so that a link has 16 bits.  The directory entry of such a file has the bit 2,
the entry of a subdirectory is the flag 0x10.
-/
namespace Atr

/-- number of the next sector, 0 at the end -/
def myLink (raw : Bytes) : Nat := (raw.getD (raw.length - 3) 0).toNat * 256 + (raw.getD (raw.length - 2) 0).toNat
/-- number of data bytes -/
def myCount (raw : Bytes) : Nat := (raw.getD (raw.length - 1) 0).toNat

/-- `l` are the sectors of the file that begins in sector `s` -/
inductive MyChain (h : AHeader) (b : Bytes) : Nat → List Nat → Prop
  | last {s : Nat} : h.DataSec s → myLink (sec h b s) = 0 → MyChain h b s [s]
  | next {s : Nat} {l : List Nat} : h.DataSec s → myLink (sec h b s) ≠ 0 → MyChain h b (myLink (sec h b s)) l → MyChain h b s (s :: l)

/-- data of a sector -/
def myData (h : AHeader) (b : Bytes) (s : Nat) : Bytes := (sec h b s).take (myCount (sec h b s))

/-- `s` is in use, but in no listed file (for example, it belongs to a subdirectory) -/
def AImg.Unlisted (m : AImg) (s : Nat) : Prop :=
  UserSec m.hdr s ∧ ¬ IsFree m.hdr m.bytes s ∧ ∀ d ∈ m.files, s ∉ m.sectorsOf d

/-- states reached without removing the file `keep` -/
inductive ReachBut (keep : Bytes) (m : AImg) : AImg → Prop
  | start : ReachBut keep m m
  | step {m' : AImg} (op : Op) : ReachBut keep m m' → op.Allowed m' → op ≠ .delete keep → ReachBut keep m (op.run m').2

end Atr
