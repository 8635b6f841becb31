import Verif.Model.Utils
/-!
# ATR / XFD headers and sector geometry
-/
namespace Atr

/-- `AtrHeader` / `XfdHeader` (`/repo/atrcopy/ataridos.py:336-452`, base fields `/repo/atrcopy/diskimages.py:20-38`).
Only the fields that are read somewhere are kept.  `header_offset` is 16 for ATR and 0 for XFD, which is also
`len(header)`.  `max_sectors` is never negative for these headers, so the "-1 is unlimited" case is left out. -/
structure AHeader where
  imageSize : Nat := 0
  sectorSize : Nat := 128
  payloadBytes : Int := 128
  initialSectorSize : Nat := 0
  numInitialSectors : Nat := 0
  crc : Nat := 0
  unused : Nat := 0
  flags : Nat := 0
  headerOffset : Nat := 0
  startingSectorLabel : Nat := 1
  maxSectors : Nat := 0
deriving DecidableEq, Repr

/-- `AtrHeader.__init__(bytes)`, ataridos.py:351-370 -/
def AHeader.parse (b : Bytes) : Except Err AHeader :=
  match b with
  | [m0, m1, p0, p1, s0, s1, ph, c0, c1, c2, c3, u0, u1, u2, u3, fl] =>
    if le16 m0 m1 ≠ 0x296 then .error .invalidAtrHeader
    else .ok { imageSize := (ph.toNat * 256 * 256 + le16 p0 p1) * 16
               sectorSize := le16 s0 s1
               crc := le32 c0 c1 c2 c3
               unused := le32 u0 u1 u2 u3
               flags := fl.toNat
               headerOffset := 16 }
  | _ => .error .invalidAtrHeader

/-- `AtrHeader.encode` / `to_array`, ataridos.py:375-386 and diskimages.py:43-46 -/
def AHeader.encode (h : AHeader) : Bytes :=
  let paragraphs := h.imageSize / 16
  enc16 0x296 ++ enc16 (paragraphs % 65536) ++ enc16 h.sectorSize ++ [UInt8.ofNat (paragraphs / 65536)]
    ++ enc32 h.crc ++ enc32 h.unused ++ [UInt8.ofNat h.flags]

/-- `AtrHeader.check_size`, ataridos.py:388-414.  Division by a zero sector size raises `ZeroDivisionError`. -/
def AHeader.checkSize (h : AHeader) (size : Nat) : Except Err AHeader :=
  let h :=
    if size = 92160 ∨ size = 92176 then
      { h with imageSize := 92160, sectorSize := 128, initialSectorSize := 0, numInitialSectors := 0 }
    else if size = 184320 ∨ size = 184336 then
      { h with imageSize := 184320, sectorSize := 256, initialSectorSize := 0, numInitialSectors := 0 }
    else if size = 183936 ∨ size = 183952 then
      { h with imageSize := 183936, sectorSize := 256, initialSectorSize := 128, numInitialSectors := 3 }
    else { h with imageSize := size }
  let h := { h with payloadBytes := (h.sectorSize : Int) - 3 }
  if h.sectorSize = 0 then .error .zeroDivision
  else .ok { h with
    maxSectors := (h.imageSize - h.initialSectorSize * h.numInitialSectors) / h.sectorSize
                    + h.numInitialSectors }

/-- `AtariDosDiskImage.read_header`, ataridos.py:505-510: ATR if the magic is there, else XFD. -/
def readHeader (b : Bytes) : AHeader :=
  match AHeader.parse (slice b 0 16) with
  | .ok h => h
  | .error _ => {}

/-- header part of `DiskImageBase.setup`, diskimages.py:154-157 -/
def openHeader (b : Bytes) : Except Err AHeader :=
  let h := readHeader b
  h.checkSize (b.length - h.headerOffset)

/-- `BaseHeader.sector_is_valid`, diskimages.py:54-55 -/
def AHeader.sectorIsValid (h : AHeader) (s : Nat) : Bool :=
  h.startingSectorLabel ≤ s && s < h.maxSectors + h.startingSectorLabel

/-- `AtrHeader.get_pos`, ataridos.py:416-426.  Note `num_initial_sectors * (sector - 1)` on line 420, as in the
source (the size of an initial sector would be expected there). -/
def AHeader.getPos (h : AHeader) (s : Nat) : Except Err (Nat × Nat) :=
  if !h.sectorIsValid s then .error .byteNotInFile
  else
    let (pos, size) :=
      if s ≤ h.numInitialSectors then (h.numInitialSectors * (s - 1), h.initialSectorSize)
      else (h.numInitialSectors * h.initialSectorSize + (s - 1 - h.numInitialSectors) * h.sectorSize, h.sectorSize)
    .ok (pos + h.headerOffset, size)

/-- `DiskImageBase.get_raw_bytes`, diskimages.py:221-223: bytes, position, size. -/
def AHeader.getRawBytes (h : AHeader) (b : Bytes) (s : Nat) : Except Err (Bytes × Nat × Nat) :=
  match h.getPos s with
  | .error e => .error e
  | .ok (pos, size) => .ok (slice b pos (pos + size), pos, size)

/-- loop of `get_sector_slice`, diskimages.py:235-238: total size of the `n` sectors after `s`. -/
def AHeader.moreSize (h : AHeader) (s : Nat) : Nat → Except Err Nat
  | 0 => .ok 0
  | n + 1 =>
    match h.getPos (s + 1) with
    | .error e => .error e
    | .ok (_, more) =>
      match h.moreSize (s + 1) n with
      | .error e => .error e
      | .ok r => .ok (more + r)

/-- `DiskImageBase.get_sector_slice`, diskimages.py:225-239, as (start, stop) -/
def AHeader.getSectorSlice (h : AHeader) (start stop : Nat) : Except Err (Nat × Nat) :=
  match h.getPos start with
  | .error e => .error e
  | .ok (pos, size) =>
    match h.moreSize start (stop - start) with
    | .error e => .error e
    | .ok more => .ok (pos, pos + (size + more))

/-- `DiskImageBase.get_sectors`, diskimages.py:241-249 (bytes only) -/
def AHeader.getSectors (h : AHeader) (b : Bytes) (start stop : Nat) : Except Err Bytes :=
  match h.getSectorSlice start stop with
  | .error e => .error e
  | .ok (i, j) => .ok (slice b i j)

/-- `DiskImageBase.get_contiguous_sectors`, diskimages.py:251-259: (start, count) -/
def AHeader.getContiguous (h : AHeader) (sector num : Nat) : Except Err (Nat × Nat) :=
  go (List.range' sector num) 0 0
where
  go : List Nat → Nat → Nat → Except Err (Nat × Nat)
    | [], start, count => .ok (start, count)
    | i :: is, start, count =>
      match h.getPos i with
      | .error e => .error e
      | .ok (pos, size) => go is (if start = 0 then pos else start) (count + size)

/-- `add_atr_header`, ataridos.py:760-767 -/
def addAtrHeader (b : Bytes) : Except Err Bytes :=
  match ({ headerOffset := 16 } : AHeader).checkSize b.length with
  | .error e => .error e
  | .ok h => .ok (h.encode ++ b)

end Atr
