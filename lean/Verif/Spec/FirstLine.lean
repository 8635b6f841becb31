import Verif.Spec.SegLines
import Verif.Spec.Sparta
/-!
# Reading the line about an image
-/
namespace Atr

/-- size, number of sectors and sector size of an Atari disk, and checksum, flags and unused field of an ATR header -/
structure DiskSaid where
  size : Nat
  sectors : Nat
  sectorSize : Nat
  atr : Option (Nat × Nat × Nat)
deriving DecidableEq

/-- an ATR image begins with 16 bytes of which the first two are 0x96 and 0x02 -/
def isAtr (b : Bytes) : Prop := 16 ≤ b.length ∧ wordAt b 0 = 0x296

instance (b : Bytes) : Decidable (isAtr b) := by unfold isAtr; exact inferInstance

/-- the number of bytes of the disk itself: those after the header; 16 more than a disk of a usual size has are not counted -/
def diskBytes (b : Bytes) : Nat :=
  let n := b.length - if isAtr b then 16 else 0
  if n = 92160 + 16 ∨ n = 183936 + 16 ∨ n = 184320 + 16 then n - 16 else n

/-- usual sizes decide the sector size, otherwise the header does; without a header it is 128 -/
def diskSectorSize (b : Bytes) : Nat :=
  if diskBytes b = 720 * 128 then 128
  else if diskBytes b = 720 * 256 ∨ diskBytes b = 3 * 128 + 717 * 256 then 256
  else if isAtr b then wordAt b 4 else 128

/-- what the file tells about the disk -/
def diskSaidOf (b : Bytes) : DiskSaid where
  size := diskBytes b
  sectors := if diskBytes b = 3 * 128 + 717 * 256 then 720 else diskBytes b / diskSectorSize b
  sectorSize := diskSectorSize b
  atr := if isAtr b then some (wordAt b 7 + 65536 * wordAt b 9, (b.getD 15 0).toNat, wordAt b 11 + 65536 * wordAt b 13) else none

/-- what an Atari disk is said to hold: Atari DOS or SpartaDOS (usable sectors, free ones, number of files), an executable of so many bytes, boot sectors,
something else -/
inductive HoldsSaid
  | atariDos (usable free files : Nat)
  | spartaDos (usable free files : Nat)
  | kboot (bytes : Nat)
  | boot
  | unknown
deriving DecidableEq

/-- `(size=92160 (720x128B)` -/
def readGeometry (t : List Char) : Option (Nat × Nat × Nat × List Char) := do
  let t ← expect "(size=".toList t
  let (n, t) ← number t
  let t ← expect " (".toList t
  let (s, t) ← number t
  let t ← expect "x".toList t
  let (b, t) ← number t
  return (n, s, b, ← expect "B)".toList t)

/-- `ATR Disk Image (size=92160 (720x128B), crc=0 flags=0 unused=0)` -/
def readAtr (t : List Char) : Option (DiskSaid × List Char) := do
  let t ← expect "ATR Disk Image ".toList t
  let (n, s, b, t) ← readGeometry t
  let t ← expect ", crc=".toList t
  let (c, t) ← number t
  let t ← expect " flags=".toList t
  let (f, t) ← number t
  let t ← expect " unused=".toList t
  let (u, t) ← number t
  return (⟨n, s, b, some (c, f, u)⟩, ← expect ")".toList t)

/-- `XFD Disk Image (size=92160 (720x128B)`, or the line of an ATR image -/
def readDisk (t : List Char) : Option (DiskSaid × List Char) :=
  (readAtr t).or do
    let t ← expect "XFD Disk Image ".toList t
    let (n, s, b, t) ← readGeometry t
    return (⟨n, s, b, none⟩, t)

/-- `707 usable sectors (700 free), 3 files` -/
def readUsable (t : List Char) : Option (Nat × Nat × Nat) := do
  let (n, t) ← number t
  let t ← expect " usable sectors (".toList t
  let (f, t) ← number t
  let t ← expect " free), ".toList t
  let (k, t) ← number t
  if t = " files".toList then return (n, f, k) else none

/-- `3000 byte executable` -/
def readExeBytes (t : List Char) : Option Nat := do
  let (n, t) ← number t
  if t = " byte executable".toList then return n else none

/-- what comes behind it -/
def readHolds (t : List Char) : Option HoldsSaid :=
  if t = " Boot Disk".toList then some .boot
  else if t = " Unidentified Contents".toList then some .unknown
  else
    match expect " Atari DOS Format: ".toList t with
    | some r => (readUsable r).map fun x => .atariDos x.1 x.2.1 x.2.2
    | none =>
      match expect " Sparta DOS Format: ".toList t with
      | some r => (readUsable r).map fun x => .spartaDos x.1 x.2.1 x.2.2
      | none =>
        match expect " KBoot Format: ".toList t with
        | some r => (readExeBytes r).map .kboot
        | none => none

/-- the line of an Atari disk -/
def readDiskLine (t : List Char) : Option (DiskSaid × HoldsSaid) := do
  let (d, t) ← readDisk t
  return (d, ← readHolds t)

/-- `DOS 3.3 Disk Image (size=143360 (560x256B)`: bytes, sectors, bytes of a sector -/
def readAppleLine (t : List Char) : Option (Nat × Nat × Nat) := do
  let t ← expect "DOS 3.3 Disk Image ".toList t
  let (n, s, b, t) ← readGeometry t
  if t = [] then return (n, s, b) else none

/-- `NAME Cartridge (atari800 type=1 size=8, 0 banks, crc=0)`: name, type, kilobytes, banks, checksum -/
structure CartSaid where
  name : List Char
  type : Int
  kilobytes : Nat
  banks : Nat
  crc : Nat
deriving DecidableEq

/-- reads it from the end: names may hold anything -/
def readCartLine (t : List Char) : Option CartSaid := do
  let t ← endsIn ")".toList t
  let (c, t) ← lastDec t
  let t ← endsIn " banks, crc=".toList t
  let (n, t) ← lastDec t
  let t ← endsIn ", ".toList t
  let (k, t) ← lastDec t
  let t ← endsIn " size=".toList t
  let (y, t) ← lastDec t
  match endsIn " Cartridge (atari800 type=".toList t with
  | some r => return ⟨r, y, k, n, c⟩
  | none => return ⟨← endsIn " Cartridge (atari800 type=-".toList t, -(y : Int), k, n, c⟩

/-- `MAME Zip file, 4 ROMs, orig_size=900, uncompressed=4096` -/
def readMameLine (t : List Char) : Option (Nat × Nat × Nat) := do
  let t ← expect "MAME Zip file, ".toList t
  let (n, t) ← number t
  let t ← expect " ROMs, orig_size=".toList t
  let (s, t) ← number t
  let t ← expect ", uncompressed=".toList t
  let (u, t) ← number t
  if t = [] then return (n, s, u) else none

/-- `8k ROM image`: kilobytes and kind -/
def readRomLine (t : List Char) : Option (Nat × List Char) := do
  let (n, t) ← number t
  return (n, ← expect "k ".toList t)

end Atr
