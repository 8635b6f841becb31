import Verif.Lemmas.Dos33Cat
/-!
# What a consistent DOS 3.3 volume is

`sec33 b s` are the 256 bytes of sector `s` (sector number = 16 * track + sector).  `Chain33 b s cs`: the sectors `cs`
are linked, starting at `s`.  `catRaw b cs` are the 35-byte slots of the catalog sectors `cs`, seven per sector.
-/
namespace Atr

/-- Sector `s` is marked free in the VTOC: bit `s % 16` of the sixteen-bit number in bytes `0x38 + 4t`, `0x39 + 4t`
(high byte first) where `t = s / 16` is the track. -/
def IsFree33 (b : Bytes) (s : Nat) : Prop :=
  s < 800 ∧ (256 * ((sec33 b 272).getD (0x38 + 4 * (s / 16)) 0).toNat +
    ((sec33 b 272).getD (0x39 + 4 * (s / 16)) 0).toNat).testBit (s % 16) = true

instance (b : Bytes) (s : Nat) : Decidable (IsFree33 b s) := inferInstanceAs (Decidable (_ ∧ _))

/-- free sectors in increasing order -/
def freePool33 (b : Bytes) : List Nat := (List.range 800).filter fun s => decide (IsFree33 b s)

/-- A sector that may hold file data: track 1 or higher, in the image, not the VTOC, not a catalog sector. -/
def UserSec33 (cs : List Nat) (s : Nat) : Prop := 16 ≤ s ∧ s < 560 ∧ s ≠ 272 ∧ s ∉ cs

/-- Track/sector list sectors `ts` and data sectors `map` of a file whose entry is `d`: the list starts at the track and
sector of the entry, and the data sectors are the first `numSectors - |ts|` pairs stored in it (from offset 12 on). -/
structure FileSecs (b : Bytes) (d : DDirent) (ts map : List Nat) : Prop where
  chain : Chain33 b (secOfTS d.track d.sector) ts
  map : map = (ts.flatMap fun t => tsPairsOf (sec33 b t)).take (d.numSectors - ts.length)

/-- Consistent volume: `cs` are the catalog sectors, `ds` the entries (live and deleted) in slot order. -/
structure Consistent33 (b : Bytes) (cs : List Nat) (ds : List DDirent) : Prop where
  size : b.length = 143360
  /-- not a ProDOS boot sector -/
  boot : slice (sec33 b 0) 0 4 ≠ [1, 56, 176, 3]
  /-- 35 tracks of 16 sectors, 122 pairs per track/sector list sector -/
  tracks : (sec33 b 272).getD 0x34 0 = 35
  sectors : (sec33 b 272).getD 0x35 0 = 16
  pairs : (sec33 b 272).getD 0x27 0 = 122
  /-- position of the catalog as the code demands it -/
  vtoc : (sec33 b 272).getD 3 0 = 3 → (sec33 b 272).getD 1 0 < 35 ∧ (sec33 b 272).getD 2 0 < 16
  /-- the catalog -/
  cat : Chain33 b (linkOf (sec33 b 272)) cs
  cat272 : 272 ∉ cs
  catNe : cs ≠ []
  /-- the entries of the catalog are `ds` … -/
  dir : scanCatSec 560 0 (catRaw b cs) = ds
  /-- … followed by unused slots only -/
  term : ∀ e ∈ (catRaw b cs).drop ds.length, UnusedSlot e
  /-- the last catalog sector is not used (the code cannot write to it, see `C13`) -/
  room : ds.length ≤ 7 * (cs.length - 1)
  sane : ∀ d ∈ ds, d.isSane = true
  /-- no locked text file (rewriting would clear its lock bit and so its whole type byte) -/
  noText : ∀ d ∈ ds, d.deleted = false → d.ftype ≠ 0
  /-- no name that ends in blanks after dropping bytes below 0x80 -/
  names : ∀ d ∈ ds, rstripWs d.filename = d.filename
  /-- every live file has data and its sectors are allocated, distinct user sectors -/
  files : ∀ d ∈ ds, d.deleted = false → ∃ ts map, FileSecs b d ts map ∧ map ≠ [] ∧ (ts ++ map).Nodup ∧
    ∀ x ∈ ts ++ map, UserSec33 cs x ∧ ¬ IsFree33 b x
  /-- files do not share sectors -/
  disjoint : ∀ (i j : Nat) (d e : DDirent), ds[i]? = some d → ds[j]? = some e → i ≠ j → d.deleted = false → e.deleted = false →
    ∀ ts map ts' map', FileSecs b d ts map → FileSecs b e ts' map' → ∀ x ∈ ts ++ map, x ∉ ts' ++ map'
  /-- only user sectors are free -/
  free : ∀ s, IsFree33 b s → UserSec33 cs s
  /-- a live file is the first entry with its name -/
  first : ∀ (i j : Nat) (d e : DDirent), ds[i]? = some d → ds[j]? = some e → d.deleted = false → j < i → e.filename ≠ d.filename

/-- The name under which DOS 3.3 stores a file: cut to 29 characters, trailing blanks dropped. -/
def norm33 (name : Bytes) : Bytes := rstripWs (name.take 29)

/-- names of ASCII characters -/
def Ascii33 (name : Bytes) : Prop := ∀ c ∈ name.take 30, c < 0x80

/-- data filled up with zeros to whole sectors -/
def padded33 (data : Bytes) : Bytes := data ++ List.replicate ((256 - data.length % 256) % 256) 0

/-- sectors needed: data sectors and one track/sector list sector for every 122 of them -/
def dataSecs33 (n : Nat) : Nat := (n + 255) / 256
def listSecs33 (n : Nat) : Nat := (dataSecs33 n + 121) / 122

/-- What a user sees: name, type and contents of the listed files. -/
def DImg.listing (m : DImg) : List (Bytes × Nat × Except Err Bytes) :=
  m.files.map fun d => (d.filename, d.ftype, d.getFile m.maxSectors m.bytes)

def DImg.names (m : DImg) : List Bytes := m.files.map (·.filename)

/-- An opened consistent volume. -/
def Mounted33 (m : DImg) (cs : List Nat) (ds : List DDirent) : Prop :=
  DImg.open m.bytes = .ok m ∧ Consistent33 m.bytes cs ds

end Atr
