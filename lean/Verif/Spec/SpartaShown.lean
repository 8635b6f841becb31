import Verif.Spec.SpartaDir
import Verif.Spec.Detect
import Verif.Model.Detect
/-!
# What is shown for an entry of a SpartaDOS directory, independently of the code that shows it
-/
namespace Atr

/-- the chain of map sectors leaves the disk -/
inductive MapBreaks (h : AHeader) (b : Bytes) : Nat → Prop
  | here {s : Nat} : h.maxSectors < s → MapBreaks h b s
  | next {s : Nat} : MapSector h b s → MapBreaks h b (wordAt (sectorBytes h b s) 0) → MapBreaks h b s

/-- all numbers are sectors of the disk -/
def SectorsOf (h : AHeader) (l : List Nat) : Prop := ∀ s ∈ l, 1 ≤ s ∧ s ≤ h.maxSectors

/-- What is shown for an entry: the bytes of the sectors in its map up to the first zero, as many as the entry says; the whole image instead of a
file without bytes, and (under another name) instead of a file with a sector or map sector that is not on the disk. -/
inductive SpartaShown (h : AHeader) (b : Bytes) (i : SInfo) : ISeg → Prop
  | file {P R : List Nat} : MapOf h b i.start (P ++ 0 :: R) → SectorsOf h P → P ≠ [] → 0 < i.length →
      SpartaShown h b i ⟨.file i.fullName, (P.flatMap (sectorBytes h b)).take i.length.toNat⟩
  | empty {P R : List Nat} : MapOf h b i.start (P ++ 0 :: R) → SectorsOf h P → (P = [] ∨ i.length ≤ 0) → SpartaShown h b i ⟨.file i.fullName, b⟩
  | noMap : MapBreaks h b i.start → SpartaShown h b i ⟨.fileError i.fullName, b⟩
  | noSector {P R : List Nat} {s : Nat} : MapOf h b i.start (P ++ s :: R) → SectorsOf h P → h.maxSectors < s →
      SpartaShown h b i ⟨.fileError i.fullName, b⟩

/-- an entry that is in use names a sector of the disk -/
def SInfo.Sane (h : AHeader) (i : SInfo) : Prop := i.inUse = true → 1 ≤ i.start ∧ i.start ≤ h.maxSectors

end Atr
