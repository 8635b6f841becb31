import Verif.Spec.Dos33Open
/-!
# How DOS 3.3 finds a file

The name in a catalog entry has 30 bytes, with the high bit set and padded with blanks (0xa0).  DOS 3.3 compares all of them.  It
looks at the entries of all catalog sectors up to the first one with track 0, and skips those with a track from 128 on.
-/
namespace Atr

/-- the 30 bytes of a name -/
def dosName33 (n : Bytes) : Bytes := n.map (· ||| 0x80) ++ List.replicate (30 - n.length) 0xa0

/-- the bytes of the name in the entry at `p` -/
def nameField33 (b : Bytes) (p : Nat) : Bytes := slice b (p + 3) (p + 33)

/-- the entries of the catalog that DOS 3.3 looks at -/
def dosSeen33 (b : Bytes) (cs : List Nat) : List Nat := (cs.flatMap entryPos33).takeWhile fun p => byteOf b p != 0

/-- where the list of the file with the name `x` is -/
def dosLookup33 (b : Bytes) (cs : List Nat) (x : Bytes) : Option Nat :=
  ((dosSeen33 b cs).find? fun p => decide (byteOf b p < 128) && decide (nameField33 b p = x)).map fun p => 16 * byteOf b p + byteOf b (p + 1)

end Atr
