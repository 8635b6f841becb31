import Verif.Spec.Dos33Read
/-!
# DOS 3.3 files with holes

In the track/sector list of a random-access text file a pair of zeros stands for a sector that was never written.  DOS reads zeros
there.  The number of sectors in the catalog counts the sectors that exist: those of the list and those of the data.
-/
namespace Atr

/-- the pairs of the list up to the last one that names a sector -/
def usedPairs33 (b : Bytes) (ts : List Nat) : List Nat := ((ts.flatMap (listPairs33 b)).reverse.dropWhile (· == 0)).reverse

/-- what DOS reads -/
def holeContents33 (b : Bytes) (ts : List Nat) : Bytes :=
  (usedPairs33 b ts).flatMap fun s => if s = 0 then List.replicate 256 0 else slice b (256 * s) (256 * s + 256)

/-- the data sectors that exist -/
def dataOf33 (b : Bytes) (ts : List Nat) : List Nat := (usedPairs33 b ts).filter (· ≠ 0)

end Atr
