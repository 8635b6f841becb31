import Verif.Spec.Display
/-!
# Where a byte of a disk is

The sectors of a disk one after the other: the byte is found by counting.
-/
namespace Atr

/-- in pieces of these sizes, one after the other: which piece holds byte `i`, and where in the piece -/
def locate : List Nat → Nat → Option (Nat × Nat)
  | [], _ => none
  | n :: ns, i => if i < n then some (0, i) else (locate ns (i - n)).map fun p => (p.1 + 1, p.2)

/-- the sizes of the sectors of an Atari disk, from sector 1 -/
def sectorSizes (h : AHeader) : List Nat :=
  List.replicate h.numInitialSectors h.initialSectorSize ++ List.replicate (h.maxSectors - h.numInitialSectors) h.sectorSize

/-- the sector that a label names, and the byte in the sector -/
def readLabel (t : List Char) : Option (Nat × Nat) := do
  let t ← expect ['s'] t
  let (s, t) ← number t
  let t ← expect [':'] t
  return (s, valueOf 16 (t.map Char.toLower))

/-- the track and the sector in the track that a label names, and the byte in the sector -/
def readTrackLabel (t : List Char) : Option (Nat × Nat × Nat) := do
  let t ← expect ['t'] t
  let (k, t) ← number t
  let t ← expect ['s'] t
  let (s, t) ← number t
  let t ← expect [':'] t
  return (k, s, valueOf 16 (t.map Char.toLower))

end Atr
