import Verif.Model.AtariHeader
/-!
# Executables: `/repo/atrcopy/executables.py`, the XEX and BSAVE parsers, KBoot boot disks

Segments are (origin, bytes).  Styles and comments are left out here (`copy_user_data`, `style[...] = ...`), and source
segments are taken as not indexed (an indexed source makes `copy_user_data` raise `IndexError`, segments.py:1063).
-/
namespace Atr

/-- a source segment: `s.origin` and `s[:]` -/
structure Seg where
  origin : Nat
  data : Bytes
deriving DecidableEq, Repr

/-- test `run_addr >= s.origin and run_addr < s.origin + len(s)`, executables.py:30, 81 -/
def Seg.has (s : Seg) (a : Nat) : Bool := s.origin ≤ a && a < s.origin + s.data.length

/-- One sub-segment of `get_xex`, executables.py:50-58.  The words are `<u2`, so `origin + len - 1` wraps modulo 65536
(also for an empty segment at origin 0). -/
def xexPiece (s : Seg) : Bytes := enc16 s.origin ++ enc16 (s.origin + s.data.length + 65535) ++ s.data

/-- list of segments written by `get_xex`, executables.py:16-42: the run address segment is put in front unless some
segment starts at 0x2e0.  `run_addr` 0 counts as not given. -/
def xexSegments (segs : List Seg) (runAddr : Option Nat) : Except Err (List Seg) :=
  if segs.any (·.origin == 0x2e0) then .ok segs
  else
    match runAddr with
    | some (a + 1) =>
      if segs.any (·.has (a + 1)) then .ok (⟨0x2e0, enc16 (a + 1)⟩ :: segs) else .error .invalidBinaryFile
    | _ =>
      match segs with
      | [] => .error .indexError
      | s :: _ => .ok (⟨0x2e0, enc16 s.origin⟩ :: segs)

/-- `get_xex`, executables.py:15-62: data of the main segment.  The sub-segments are consecutive slices filling an array
of exactly their total length, so the result is their concatenation. -/
def getXex (segs : List Seg) (runAddr : Option Nat) : Except Err Bytes :=
  match xexSegments segs runAddr with
  | .error e => .error e
  | .ok l => .ok ([0xff, 0xff] ++ l.flatMap xexPiece)

/-- kinds of segments made by the XEX parser: normal, run address (class `RunAddressSegment`), cut off by the end of the
file, a header cut off by the end of the file, a single last byte -/
inductive XKind
  | obj | run | incomplete | short | odd
deriving DecidableEq, Repr

/-- A parsed segment: file positions of its data, the address it starts at, its data. -/
structure XSeg where
  kind : XKind
  pos : Nat
  origin : Nat
  data : Bytes
deriving DecidableEq, Repr

/-- Loop of `AtariDosFile.parse_segments`, ataridos.py:296-332.  The result so far is lost when an exception is raised,
so it is built on the way back.  The fuel is the size of the file plus one; every round advances (C18 shows that it never
runs out).  Segments have the class attributes only; `end_addr` is ignored by `ObjSegment` (segments.py:1115). -/
def xexLoop (b : Bytes) : Nat → Nat → Bool → Except Err (List XSeg)
  | 0, _, _ => .error .hang
  | fuel + 1, pos, first =>
    if pos < b.length then
      match b.drop pos with
      | [] => .error .hang -- not reachable
      | [x] => .ok [⟨.odd, pos, 0, [x]⟩]
      | lo :: hi :: rest =>
        if le16 lo hi = 0xffff then xexLoop b fuel (pos + 2) false
        else if first then .error .invalidBinaryFile
        else
          match rest with
          | elo :: ehi :: tl =>
            let start := le16 lo hi
            let stop := le16 elo ehi
            if stop < start then .error .invalidBinaryFile
            else
              let count := stop - start + 1
              let d := tl.take count
              if d.length < count then .ok [⟨.incomplete, pos + 4, start, d⟩]
              else
                match xexLoop b fuel (pos + (4 + count)) false with
                | .error e => .error e
                | .ok l => .ok (⟨if start = 0x2e0 then .run else .obj, pos + 4, start, d⟩ :: l)
          | _ => .ok [⟨.short, pos, 0, lo :: hi :: rest⟩]
    else .ok []

/-- `AtariDosFile(rawdata).parse_segments()`, ataridos.py:288-332 -/
def parseXex (b : Bytes) : Except Err (List XSeg) := xexLoop b (b.length + 1) 0 true

/-! ### BSAVE -/

/-- lowest origin, executables.py:69-73; the start value 100000000 is kept -/
def bsaveOrigin (segs : List Seg) : Nat := segs.foldl (fun o s => min o s.origin) 100000000

/-- end of the last segment, executables.py:70-74.  Python starts at -1; with a segment present this does not matter, and
without one `size` is negative. -/
def bsaveLast (segs : List Seg) : Nat := segs.foldl (fun l s => max l (s.origin + s.data.length)) 0

/-- loop of `get_bsave`, executables.py:97-100: copy each segment to its place in the image (`origin` may be negative
after line 86) -/
def bsaveFill (origin : Int) : List Seg → Bytes → Bytes
  | [], im => im
  | s :: ss, im => bsaveFill origin ss (splice im ((s.origin : Int) - origin + 4).toNat s.data)

/-- `get_bsave`, executables.py:65-101.  A negative origin (JMP before address 0) wraps in the `<u2` header. -/
def getBsave (segs : List Seg) (runAddr : Option Nat) : Except Err Bytes :=
  let origin := bsaveOrigin segs
  let last := bsaveLast segs
  let build (origin : Int) (all : List Seg) (jump : Bytes) : Except Err Bytes :=
    let size := (last : Int) - origin
    if segs = [] then .error .valueError  -- np.zeros of a negative size
    else
      let image := enc16 (origin % 65536).toNat ++ enc16 (size % 65536).toNat ++ List.replicate size.toNat 0
      .ok (bsaveFill origin all (splice image 4 jump))
  match runAddr with
  | some (a + 1) =>
    if a + 1 ≠ origin then
      if segs.any (·.has (a + 1)) then
        -- the segment with the JMP is the first one copied, to index 4
        build ((origin : Int) - 3) segs [0x4c, UInt8.ofNat (a + 1), UInt8.ofNat ((a + 1) / 256)]
      else .error .invalidBinaryFile
    else build origin segs []
  | _ => build origin segs []

/-- `Dos33BinFile.parse_segments`, dos33.py:620-641: the only segment, as (origin, data).  The name of the segment is
`"BSAVE data" % start`, which does not raise although nothing is converted: `start` is a NumPy scalar (DESIGN.md) -/
def parseBsave (b : Bytes) : Except Err Seg :=
  match b with
  | a0 :: a1 :: c0 :: c1 :: d =>
    let count := le16 c0 c1
    if count ≠ b.length - 4 then .error .invalidBinaryFile
    else if (d.take count).length = count then .ok ⟨le16 a0 a1, d.take count⟩
    else .error .invalidBinaryFile
  | _ => .error .invalidBinaryFile

/-! ### KBoot -/

/-- `xexboot_header`, kboot.py:85 -/
def xexbootHeader : Bytes := [
  0, 3, 0, 7, 13, 7, 76, 13, 7, 28, 91, 0, 0, 160, 0, 140, 9, 3, 140, 4, 3, 140, 68, 2, 140, 226, 2, 140, 227, 2, 200,
  132, 9, 140, 1, 3, 206, 6, 3, 169, 49, 141, 0, 3, 169, 82, 141, 2, 3, 169, 128, 141, 8, 3, 169, 1, 141, 5, 3, 169,
  227, 141, 48, 2, 141, 2, 212, 169, 7, 141, 49, 2, 141, 3, 212, 169, 0, 170, 141, 11, 3, 169, 4, 141, 10, 3, 32, 188,
  7, 202, 32, 165, 7, 133, 67, 32, 165, 7, 133, 68, 37, 67, 201, 255, 240, 240, 32, 165, 7, 133, 69, 32, 165, 7, 133,
  70, 32, 165, 7, 145, 67, 230, 67, 208, 2, 230, 68, 165, 69, 197, 67, 165, 70, 229, 68, 176, 235, 173, 226, 2, 13,
  227, 2, 240, 201, 134, 25, 32, 162, 7, 166, 25, 160, 0, 140, 226, 2, 140, 227, 2, 240, 184, 108, 226, 2, 173, 9, 7,
  208, 11, 173, 10, 7, 208, 3, 108, 224, 2, 206, 10, 7, 206, 9, 7, 224, 128, 144, 34, 169, 64, 141, 3, 3, 32, 89, 228,
  16, 6, 206, 1, 7, 208, 241, 0, 238, 10, 3, 208, 3, 238, 11, 3, 173, 10, 3, 141, 25, 208, 160, 0, 162, 0, 189, 0, 1,
  232, 96, 112, 112, 112, 112, 112, 70, 248, 7, 112, 7, 112, 112, 112, 6, 112, 6, 112, 6, 65, 227, 7, 0, 0, 0, 0, 0,
  44, 47, 33, 36, 41, 46, 39, 14, 14, 14, 0, 0, 0, 0, 0, 0, 0, 0, 0, 0, 0, 0, 0, 0, 0, 0, 0, 0, 0, 0, 0, 0, 0, 0, 0,
  0, 0, 0, 0, 0, 0, 0, 0, 38, 50, 47, 45]

/-- `insert_bytes`, kboot.py:88-93; `string` is already in upper case -/
def insertBytes (data : Bytes) (offset : Nat) (string : Bytes) (color : UInt8) : Bytes :=
  splice data (offset + (20 - string.length) / 2) (string.map fun c => (c - 32) ||| color)

/-- `"DEMO"` and `"AN ATARI USER"`, kboot.py:96 -/
def kbTitle : Bytes := [0x44, 0x45, 0x4d, 0x4f]
def kbAuthor : Bytes := [0x41, 0x4e, 0x20, 0x41, 0x54, 0x41, 0x52, 0x49, 0x20, 0x55, 0x53, 0x45, 0x52]

/-- boot sectors with the length of the executable (16 bits, wraps), kboot.py:105-121 -/
def kbBoot (xexSize : Nat) : Bytes :=
  let boot := splice xexbootHeader 9 (enc16 xexSize)
  let s := splice (List.replicate 384 0) 0 boot
  insertBytes (insertBytes s 268 kbTitle 0xc0) 308 kbAuthor 0x40

/-- `add_xexboot_header` with the default boot code, kboot.py:96-123 -/
def addXexboot (x : Bytes) : Bytes :=
  let padded := (x.length + 127) / 128 * 128
  kbBoot x.length ++ (x ++ List.replicate (padded - x.length) 0)

/-- `KBootImage.create_boot_image`, kboot.py:70-82: bytes of the new image.  `run_addr` is not used (line 71). -/
def createBootImage (segs : List Seg) (_runAddr : Option Nat) : Except Err Bytes :=
  match getXex segs none with
  | .error e => .error e
  | .ok x => addAtrHeader (addXexboot x)

/-- Opening the bytes as `KBootImage` and reading the file: `read_header`, `check_size`, `KBootDirent.__init__`
(kboot.py:8-28), `check_sane` (42-44), `get_file_segment` (57-61).  An `ATR` with fewer than four sectors raises in
`get_pos`; a file too short for the length field raises `IndexError`. -/
def kbootFile (b : Bytes) : Except Err Bytes :=
  match openHeader b with
  | .error e => .error e
  | .ok h =>
    match h.getPos 4 with
    | .error e => .error e
    | .ok (start, _) =>
      match b.drop (h.headerOffset + 9) with
      | c0 :: c1 :: c2 :: _ =>
        let count := c0.toNat + 256 * c1.toNat + 256 * 256 * c2.toNat
        if start + count > b.length ∨ start + count + 128 < b.length then .error .invalidDiskImage
        else .ok (slice b start (start + count))
      | _ => .error .indexError

end Atr
