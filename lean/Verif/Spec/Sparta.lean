import Verif.Model.AtariHeader
/-!
# SpartaDOS sector maps, independently of the code that reads them
-/
namespace Atr

/-- contents of a sector; nothing if there is no such sector -/
def sectorBytes (h : AHeader) (b : Bytes) (s : Nat) : Bytes :=
  match h.getPos s with
  | .ok (p, n) => slice b p (p + n)
  | .error _ => []

/-- little-endian word at a byte offset -/
def wordAt (d : Bytes) (i : Nat) : Nat := (d.getD i 0).toNat + 256 * (d.getD (i + 1) 0).toNat

/-- sector numbers held by a map sector: everything after the forward and backward links -/
def mapWords (d : Bytes) : List Nat := (List.range (d.length / 2 - 2)).map fun i => wordAt d (4 + 2 * i)

/-- a map sector as it should be: on the disk, with room for the two links and whole words -/
def MapSector (h : AHeader) (b : Bytes) (s : Nat) : Prop :=
  1 ≤ s ∧ s ≤ h.maxSectors ∧ 4 ≤ (sectorBytes h b s).length ∧ (sectorBytes h b s).length % 2 = 0

/-- `M` is the sector map that starts in map sector `s` -/
inductive MapOf (h : AHeader) (b : Bytes) : Nat → List Nat → Prop
  | nil : MapOf h b 0 []
  | cons {s : Nat} {M : List Nat} : MapSector h b s → MapOf h b (wordAt (sectorBytes h b s) 0) M →
      MapOf h b s (mapWords (sectorBytes h b s) ++ M)

end Atr
