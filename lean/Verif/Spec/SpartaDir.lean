import Verif.Spec.Sparta
/-!
# SpartaDOS directories, independently of the code that reads them

A directory is a file of records of 23 bytes; the first record describes the directory itself.
-/
namespace Atr

/-- what a record says about a file -/
structure SInfo where
  name : Bytes
  ext : Bytes
  length : Int
  start : Nat
  locked : Bool
  inUse : Bool
  deleted : Bool
  isDir : Bool
  openForOutput : Bool
  stamp : Bytes
deriving DecidableEq

/-- name and extension, separated by a dot if there is an extension -/
def SInfo.fullName (i : SInfo) : Bytes := if i.ext = [] then i.name else i.name ++ [0x2e] ++ i.ext

/-- the bytes up to the last one that is no NUL, and of these up to the last one that is no white space -/
def trimmed (l : Bytes) : Bytes :=
  (((l.reverse.dropWhile (· == 0)).reverse).reverse.dropWhile fun c => c == 32 || (9 ≤ c && c ≤ 13)).reverse

/-- bit `2 ^ k` of the status byte -/
def statusBit (e : Bytes) (k : Nat) : Bool := (e.getD 0 0).toNat / 2 ^ k % 2 == 1

/-- A record: status, map sector, three bytes of length (taken as a signed number), name, extension, date and time.  The extension of a directory is
not looked at. -/
def sInfo (e : Bytes) : SInfo where
  name := trimmed (slice e 6 14)
  ext := if statusBit e 5 then [] else trimmed (slice e 14 17)
  length := (wordAt e 3 : Int) + 65536 * (e.getD 5 0).toNat - (if (e.getD 5 0).toNat < 128 then 0 else 16777216)
  start := wordAt e 1
  locked := statusBit e 0
  inUse := statusBit e 3
  deleted := statusBit e 4
  isDir := statusBit e 5
  openForOutput := statusBit e 7
  stamp := slice e 17 23

/-- `L` is what the directory whose map starts in sector `root` lists: `c` are the bytes of its sectors, the first 23 of which say how long (`n`) it is -/
def SpartaListing (h : AHeader) (b : Bytes) (root : Nat) (L : List SInfo) : Prop :=
  ∃ M, MapOf h b root M ∧ ((∃ R, M = 0 :: R ∧ L = []) ∨ ∃ t P R, M = t :: P ++ 0 :: R ∧ (∀ s ∈ t :: P, 1 ≤ s ∧ s ≤ h.maxSectors) ∧
    23 ≤ (sectorBytes h b t).length ∧ let n := (sInfo (slice (sectorBytes h b t) 0 23)).length; let c := (t :: P).flatMap (sectorBytes h b)
      (n ≤ 23 ∧ L = []) ∨ (23 < n ∧ n % 23 = 0 ∧ n ≤ c.length ∧
        L = (List.range' 1 (n.toNat / 23 - 1)).map fun i => sInfo (slice c (23 * i) (23 * i + 23))))

end Atr
