import Verif.Lemmas.AtariRead
/-!
# What a consistent Atari DOS volume is

Small specification used by the theorems of `Verif/Props/Atari*.lean`.  `sec h b s` are the bytes of sector `s`,
`rawEntries h b` the sixteen-byte entries of sectors 361-368 (both are plain slices of the image).
-/
namespace Atr

/-- A sector that may hold file data: not a boot sector, not VTOC/directory (360-368, and 1024 on enhanced density
images), in the image, below 1280. -/
def UserSec (h : AHeader) (s : Nat) : Prop :=
  4 ≤ s ∧ s ≤ h.maxSectors ∧ s < 1280 ∧ ¬ ((360 ≤ s ∧ s ≤ 368) ∨ (h.imageSize = 133120 ∧ s = 1024))

/-- Allocation bitmap: bits of bytes 10-99 of sector 360, most significant bit first; `true` = free. -/
def freeMap (h : AHeader) (b : Bytes) : List Bool := unpackbits (slice (sec h b 360) 10 100)

/-- Sector `s` is marked free. -/
def IsFree (h : AHeader) (b : Bytes) (s : Nat) : Prop := (freeMap h b)[s]? = some true

/-- The free pool in increasing order. -/
def freePool (h : AHeader) (b : Bytes) : List Nat := freeList (freeMap h b)

/-- Consistent volume, except for what may follow the end of the directory: `h` is the header read from the bytes `b`,
`ds` the directory entries (live and deleted) in slot order. -/
structure Loose (h : AHeader) (b : Bytes) (ds : List ADirent) : Prop where
  /-- the header is the one read from the image -/
  opens : openHeader b = .ok h
  sectorSize : h.sectorSize = 128 ∨ h.sectorSize = 256
  /-- VTOC and directory are inside the image -/
  size : 368 ≤ h.maxSectors
  /-- enhanced density images have their second VTOC sector -/
  ed : h.imageSize = 133120 → 1024 ≤ h.maxSectors
  /-- VTOC code byte of a DOS 2 volume -/
  vtocCode : (sec h b 360).head? = some 0 ∨ (sec h b 360).head? = some 2
  /-- the directory scan gives `ds` -/
  dir : scanDir h 0 (rawEntries h b) = .ok ds
  /-- no entry uses the flag bit or the name padding that re-encoding would lose -/
  stable : ∀ (i : Nat) (d : ADirent), ds[i]? = some d → ADirent.parse h i d.encode = .ok d
  /-- every live file has a readable, duplicate-free, non-empty chain of allocated user sectors -/
  chains : ∀ d ∈ ds, d.inUse = true → ∃ l, d.readChain h b = .ok l ∧ byteOrder l ≠ [] ∧ (l.map (·.1)).Nodup ∧
    ∀ x ∈ l, UserSec h x.1 ∧ ¬ IsFree h b x.1 ∧ x.2.2 ≤ h.sectorSize
  /-- chains of different live files are disjoint -/
  disjoint : ∀ (i j : Nat) (d e : ADirent), ds[i]? = some d → ds[j]? = some e → i ≠ j → d.inUse = true → e.inUse = true →
    ∀ l l', d.readChain h b = .ok l → e.readChain h b = .ok l' → ∀ x ∈ l, ∀ y ∈ l', x.1 ≠ y.1
  /-- only user sectors are free -/
  free : ∀ s, IsFree h b s → UserSec h s
  /-- a live file is the first entry with its name (so live names are unique) -/
  first : ∀ (i j : Nat) (d e : ADirent), ds[i]? = some d → ds[j]? = some e → d.inUse = true → j < i → e.filename ≠ d.filename

/-- Consistent volume: no directory sector after the end of the directory begins with a used entry.  (An entry with flag 0
ends the directory.  What follows it may be anything, but a used entry at the start of a later sector can come back, see
`C106_returns`.) -/
structure Consistent (h : AHeader) (b : Bytes) (ds : List ADirent) : Prop extends Loose h b ds where
  term : ∀ (i : Nat) (e : Bytes), ds.length ≤ i → 16 * i % h.sectorSize = 0 → (rawEntries h b)[i]? = some e → e.head? = some 0

instance {h b ds} : Coe (Consistent h b ds) (Loose h b ds) := ⟨Consistent.toLoose⟩

/-- The name under which Atari DOS stores a file: base cut to 8, extension cut to 3, trailing blanks dropped. -/
def norm83 (name : Bytes) : Bytes :=
  let base := rstripWs ((name.takeWhile (· != 0x2e)).take 8)
  let ext := rstripWs ((((name.dropWhile (· != 0x2e)).drop 1)).take 3)
  base ++ (if ext = [] then [] else 0x2e :: ext)

/-- Canonical 8.3 name. -/
def Canon83 (name : Bytes) : Prop := norm83 name = name ∧ 0 ∉ name

/-- What a user sees: names and contents of the listed files, in listing order. -/
def AImg.listing (m : AImg) : List (Bytes × Except Err Bytes) :=
  m.files.map fun d => (d.filename, d.getFile m.hdr m.bytes)

/-- An opened consistent volume. -/
def Mounted (m : AImg) (ds : List ADirent) : Prop :=
  AImg.open m.bytes = .ok m ∧ Consistent m.hdr m.bytes ds

/-- names of the listed files -/
def AImg.names (m : AImg) : List Bytes := m.files.map ADirent.filename

/-- Sectors needed for `n` bytes: `n` divided by the payload (sector size - 3), rounded up. -/
def sectorsNeeded (h : AHeader) (n : Nat) : Nat := (n + (h.sectorSize - 3) - 1) / (h.sectorSize - 3)

/-- Sector numbers of the chain of a listed file. -/
def AImg.sectorsOf (m : AImg) (d : ADirent) : List Nat :=
  match d.readChain m.hdr m.bytes with
  | .ok l => l.map (·.1)
  | .error _ => []

/-- Operations of the Python interface. -/
inductive Op
  | write (name data : Bytes)
  | delete (name : Bytes)
  | shred (fill : Nat)

/-- Run an operation; the state is the one left behind, whether or not an exception is raised. -/
def Op.run : Op → Proc AImg Unit
  | .write name data => AImg.writeFile name data
  | .delete name => AImg.deleteFile name
  | .shred fill => AImg.shred fill

/-- Operations covered by the reachability theorem C07.  Excluded (and shown to misbehave in C50, C51, C52, C09):
writing empty data, a duplicate name or to a full directory; deleting a name that only a *deleted* entry has;
shredding a volume of more than 1279 sectors. -/
def Op.Allowed (m : AImg) : Op → Prop
  | .write name data => data ≠ [] ∧ 0 ∉ name ∧ m.files.length < 64 ∧ norm83 name ∉ m.names
  | .delete name => name ∈ m.names ∨ ∀ ds, scanDir m.hdr 0 (rawEntries m.hdr m.bytes) = .ok ds → ∀ d ∈ ds, d.filename ≠ name
  | .shred _ => m.hdr.maxSectors < 1280

/-- States reachable by any finite number of allowed operations, successful or not. -/
inductive Reach (m : AImg) : AImg → Prop
  | start : Reach m m
  | step {m' : AImg} (op : Op) : Reach m m' → op.Allowed m' → Reach m (op.run m').2

end Atr
