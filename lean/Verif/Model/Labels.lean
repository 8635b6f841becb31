import Verif.Model.Display
/-!
# Labels of bytes: `RawSectorsSegment`, `RawTrackSectorSegment`, `/repo/atrcopy/segments.py:1141-1197`
-/
namespace Atr

/-- the numbers that a `RawSectorsSegment` keeps, segments.py:1144-1150 -/
structure SecSeg where
  first : Nat
  num : Nat
  bootSize : Nat
  numBoot : Nat
  pageSize : Nat
deriving DecidableEq, Repr

/-- `divmod` of numbers that are not negative -/
def pyDivmod (a b : Nat) : Except Err (Nat × Nat) := if b = 0 then .error .zeroDivision else .ok (a / b, a % b)

/-- sector and byte of `label`, segments.py:1174-1179, 1187-1193 -/
def SecSeg.place (g : SecSeg) (i : Nat) : Except Err (Nat × Nat) :=
  let boot := g.numBoot * g.bootSize
  if boot ≤ i then
    match pyDivmod (i - boot) g.pageSize with
    | .error e => .error e
    | .ok (s, b) => .ok (s + g.numBoot + g.first, b)
  else
    match pyDivmod i g.bootSize with
    | .error e => .error e
    | .ok (s, b) => .ok (s + g.first, b)

/-- the letters of `%X` -/
def upperHex (c : Char) : Char :=
  match c with
  | 'a' => 'A' | 'b' => 'B' | 'c' => 'C' | 'd' => 'D' | 'e' => 'E' | 'f' => 'F'
  | c => c

/-- `%02x` and `%02X` -/
def pctHex2 (lower : Bool) (n : Nat) : Text :=
  let t := Nat.toDigits 16 n
  List.replicate (2 - t.length) '0' ++ (if lower then t else t.map upperHex)

/-- `RawSectorsSegment.label`, segments.py:1173-1182 -/
def SecSeg.label (g : SecSeg) (i : Nat) (lower : Bool) : Except Err Text :=
  match g.place i with
  | .error e => .error e
  | .ok (s, b) => .ok ('s' :: (pctZero 3 s ++ ':' :: pctHex2 lower b))

/-- `RawTrackSectorSegment.label`, segments.py:1186-1197 -/
def SecSeg.trackLabel (g : SecSeg) (i : Nat) (lower : Bool) : Except Err Text :=
  match g.place i with
  | .error e => .error e
  | .ok (s, b) => .ok ('t' :: (pctZero 2 (s / 16 : Nat) ++ 's' :: (pctZero 2 (s % 16 : Nat) ++ ':' :: pctHex2 lower b)))

/-- the "Raw disk sectors" of an Atari disk, diskimages.py:266 -/
def AHeader.rawSeg (h : AHeader) : SecSeg := ⟨h.startingSectorLabel, h.maxSectors, h.initialSectorSize, h.numInitialSectors, h.sectorSize⟩

/-- the "Directory" of an Atari disk, ataridos.py:639; `VTOC` and `VTOC2` (lines 613, 625) are made in the same way with other sectors -/
def AHeader.sysSeg (h : AHeader) (first num : Nat) : SecSeg := ⟨first, num, 128, 3, h.sectorSize⟩

/-- the "Bitmap" of a SpartaDOS disk, spartados.py:206 -/
def AHeader.bitmapSeg (h : AHeader) (first num : Nat) : SecSeg := ⟨first, num, 0, 0, h.sectorSize⟩

/-- "Raw disk sectors" (diskimages.py:266) and "VTOC" (dos33.py:507) of a DOS 3.3 disk -/
def rawSeg33 : SecSeg := ⟨0, 560, 0, 0, 256⟩
def vtocSeg33 : SecSeg := ⟨272, 1, 0, 0, 256⟩

end Atr
