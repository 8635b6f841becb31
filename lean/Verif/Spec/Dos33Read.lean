import Verif.Model.Dos33
/-!
# What a DOS 3.3 file consists of, for any image

Sector `s` is at bytes `256 * s` to `256 * s + 255`; a byte beyond the end of the image counts as 0.
-/
namespace Atr

/-- byte `i` of sector `s` -/
def secByte33 (b : Bytes) (s i : Nat) : Nat := (b.getD (256 * s + i) 0).toNat

/-- the track and sector stored at byte `i` of sector `s`, as a sector number -/
def pairAt33 (b : Bytes) (s i : Nat) : Nat := 16 * secByte33 b s i + secByte33 b s (i + 1)

/-- the 122 pairs of a track/sector list sector -/
def listPairs33 (b : Bytes) (s : Nat) : List Nat := (List.range 122).map fun i => pairAt33 b s (12 + 2 * i)

/-- The list that starts in sector `s` consists of the sectors `ts`: each is below `n`, and the last one links to 0. -/
inductive ListChain33 (n : Nat) (b : Bytes) : Nat → List Nat → Prop
  | done : ListChain33 n b 0 []
  | next {s ts} : s ≠ 0 → s < n → ListChain33 n b (pairAt33 b s 1) ts → ListChain33 n b s (s :: ts)

/-- the list that starts in sector `s` links to a sector that is not below `n` -/
inductive ListOut33 (n : Nat) (b : Bytes) : Nat → Prop
  | here {s} : n ≤ s → s ≠ 0 → ListOut33 n b s
  | next {s} : s ≠ 0 → s < n → ListOut33 n b (pairAt33 b s 1) → ListOut33 n b s

/-- The data sectors of a file with list sectors `ts` and `num` sectors in all: so many of the pairs that list and data sectors
together are `num`.  (If there are more list sectors than `num`, the code leaves out the last pairs instead.) -/
def dataSectors33 (b : Bytes) (num : Nat) (ts : List Nat) : List Nat :=
  (ts.flatMap (listPairs33 b)).take (if ts.length ≤ num then num - ts.length else 121 * ts.length + num)

end Atr
