import Verif.Model.Parsers
import Verif.Model.Cart
import Verif.Model.Executables
import Verif.Model.Sparta
import Verif.Model.Dos33
import Verif.Model.Cli
/-!
# What a file is taken for: the parser classes of parsers.py with the image classes behind them

`Parsers` models the selection; here are the real parser lists.  A segment is modelled by its name and its bytes; addresses,
styles and comments are left out (setting them does not fail).  `zip` stands for the `zipfile` module.
-/
namespace Atr

/-- the names under which parts of an image are shown.  A file is shown under its name; `fileError` is a file that could not
be read (`EmptySegment` with a message). -/
inductive SegName
  | header | raw | bootHeader | bootSectors | bootCode | vtoc | vtoc2 | directory | bitmap | kbootExe
  | boot1 | boot2 | relocator | boot3
  | file (name : Bytes) | fileError (name : Bytes)
deriving DecidableEq, Repr

/-- a segment of an image: name and bytes -/
structure ISeg where
  name : SegName
  data : Bytes
deriving DecidableEq, Repr

/-- the first two segments of `DiskImageBase.parse_segments`, diskimages.py:262-266 -/
def baseSegs (imageSize offset : Nat) (b : Bytes) : List ISeg :=
  (if imageSize > 0 then [⟨.header, slice b 0 offset⟩] else []) ++ [⟨.raw, b.drop offset⟩]

/-- `get_file_segments`, diskimages.py:301-309: a file that raises `InvalidFile` (or a subclass) is shown as an
`EmptySegment` on the whole image, every other exception propagates.  (In `AtariDosDiskImage.get_file_segments`,
ataridos.py:669-680, the `AtariDosFile` objects are never parsed, so their lists of segments are empty.) -/
def fileSegs {δ : Type} (name : δ → Bytes) (get : δ → Except Err Bytes) (b : Bytes) : List δ → Except Err (List ISeg)
  | [] => .ok []
  | d :: ds =>
    match (match get d with
      | .ok data => Except.ok (ISeg.mk (.file (name d)) data)
      | .error e => if e.isInvalidFile then .ok (ISeg.mk (.fileError (name d)) b) else .error e) with
    | .error e => .error e
    | .ok s =>
      match fileSegs name get b ds with
      | .error e => .error e
      | .ok ss => .ok (s :: ss)

/-- `AtrHeader.strict_check` and `XfdHeader.strict_check`, ataridos.py:428-432, 448-452.  A header offset of 16 means ATR. -/
def AHeader.strictCheck (h : AHeader) (size : Nat) : Except Err Unit :=
  if h.headerOffset = 16 then .ok ()
  else if size ∈ [92160, 133120, 183936, 184320] then .ok ()
  else .error .invalidDiskImage

/-- the slice and its first `n` bytes as boot segments: ataridos.py:600-606 (`n = 20`), 733-739 (`n = 6`) -/
def bootSegsAt (h : AHeader) (b : Bytes) (n num : Nat) : Except Err (List ISeg) :=
  match h.getSectorSlice 1 num with
  | .error e => .error e
  | .ok (i, j) =>
    let r := slice b i j
    .ok [⟨.bootSectors, r⟩, ⟨.bootHeader, slice r 0 n⟩, ⟨.bootCode, r.drop n⟩]

/-- `data[0:n].view(dtype of n bytes)[0]`: an empty slice has no element 0, a short one does not fit -/
def viewRecord (n : Nat) (data : Bytes) : Except Err Unit :=
  if data = [] then .error .indexError else if data.length < n then .error .valueError else .ok ()

/-- `AtariDosDiskImage.get_boot_segments`, ataridos.py:592-607.  The boot record is read from sector **360**, so the flag is
the VTOC code and the number of sectors is the low byte of the total number of sectors. -/
def atariBootSegs (h : AHeader) (b : Bytes) : Except Err (List ISeg) :=
  match h.getSectors b 360 360 with
  | .error e => .error e
  | .ok data =>
    match viewRecord 20 data with
    | .error e => .error e
    | .ok () => if (data.getD 0 0).toNat = 0 then bootSegsAt h b 20 (data.getD 1 0).toNat else .ok []

/-- `AtariDosDiskImage.get_vtoc_segments`, ataridos.py:608-632 -/
def atariVtocSegs (m : AImg) : Except Err (List ISeg) :=
  match m.hdr.getContiguous m.firstVtoc m.numVtoc.toNat with
  | .error e => .error e
  | .ok (start, count) =>
    let s1 : ISeg := ⟨.vtoc, slice m.bytes start (start + count)⟩
    if m.vtoc2 > 0 then
      match m.hdr.getContiguous m.vtoc2 1 with
      | .error e => .error e
      | .ok (start, count) => .ok [s1, ⟨.vtoc2, slice m.bytes start (start + count)⟩]
    else .ok [s1]

/-- `AtariDosDiskImage.get_directory_segments`, ataridos.py:634-650 -/
def atariDirSegs (h : AHeader) (b : Bytes) : Except Err (List ISeg) :=
  match h.getContiguous 361 8 with
  | .error e => .error e
  | .ok (start, count) => .ok [⟨.directory, slice b start (start + count)⟩]

/-- `parse_segments` of an Atari DOS image, diskimages.py:261-270 -/
def AImg.segments (m : AImg) : Except Err (List ISeg) :=
  match atariBootSegs m.hdr m.bytes with
  | .error e => .error e
  | .ok s1 =>
    match atariVtocSegs m with
    | .error e => .error e
    | .ok s2 =>
      match atariDirSegs m.hdr m.bytes with
      | .error e => .error e
      | .ok s3 =>
        match fileSegs ADirent.filename (fun d => d.getFile m.hdr m.bytes) m.bytes m.files with
        | .error e => .error e
        | .ok s4 => .ok (baseSegs m.hdr.imageSize m.hdr.headerOffset m.bytes ++ s1 ++ s2 ++ s3 ++ s4)

/-! ### the other formats of an Atari disk -/

/-- `KBootImage(rawdata)` and its segments: `kbootFile` (opening and reading), kboot.py:57-67 (no boot, VTOC and directory
segments) -/
def kbootSegments (h : AHeader) (b exe : Bytes) : List ISeg :=
  baseSegs h.imageSize h.headerOffset b ++ [⟨.kbootExe, exe⟩]

/-- the directory entry of the root directory, `root_dir_dirent`, spartados.py:167-179: `none` when the first entry of the map
is 0 -/
def spartaRootDirent (h : AHeader) (b : Bytes) (rootDir : Nat) : Except Err (Option SDirent) :=
  match spartaMap h b rootDir with
  | .error e => .error e
  | .ok [] => .error .indexError
  | .ok (sector :: _) =>
    if sector = 0 then .ok none
    else
      match h.getRawBytes b sector with
      | .error e => .error e
      | .ok (raw, _, _) =>
        match SDirent.parse h 0 (slice raw 0 23) with
        | .error e => .error e
        | .ok d =>
          let d := { d with startingSector := rootDir }
          .ok (some { d with isSane := d.sanityCheck h })

/-- `SpartaDosDiskImage.get_boot_segments`, spartados.py:181-193: always just sector 1 (`min(num_boot, 1)`), and the header
again instead of the whole slice (line 192) -/
def spartaBootSegs (h : AHeader) (b : Bytes) : Except Err (List ISeg) :=
  match h.getSectors b 1 1 with
  | .error e => .error e
  | .ok data =>
    let numBoot := (data.getD 1 0).toNat
    match h.getSectorSlice 1 (min numBoot 1) with
    | .error e => .error e
    | .ok (i, j) =>
      let r := slice b i j
      let header : ISeg := ⟨.bootHeader, slice r 0 43⟩
      .ok (header :: if numBoot > 0 then [header, ⟨.bootCode, r.drop 43⟩] else [])

/-- `SpartaDosDiskImage.get_vtoc_segments`, spartados.py:195-208.  `sector + num` is a sum of a `uint16` and a `uint8`, which
wraps; the range is then empty. -/
def spartaVtocSegs (h : AHeader) (b : Bytes) : Except Err (List ISeg) :=
  match h.getSectors b 1 1 with
  | .error e => .error e
  | .ok data =>
    let first := le16 (data.getD 16 0) (data.getD 17 0)
    let num := (data.getD 15 0).toNat
    match h.getContiguous first (if first + num < 65536 then num else 0) with
    | .error e => .error e
    | .ok (start, count) => .ok [⟨.bitmap, slice b start (start + count)⟩]

/-- `parse_segments` of a SpartaDOS image: diskimages.py:261-270, spartados.py:181-227 -/
def SImg.segments (m : SImg) : Except Err (List ISeg) :=
  match spartaBootSegs m.hdr m.bytes with
  | .error e => .error e
  | .ok s1 =>
    match spartaVtocSegs m.hdr m.bytes with
    | .error e => .error e
    | .ok s2 =>
      match spartaRootDirent m.hdr m.bytes m.rootDir with
      | .error e => .error e
      | .ok none => .error .attributeError
      | .ok (some d) =>
        match d.getFile m.hdr m.bytes with
        | .error e => .error e
        | .ok dir =>
          match fileSegs SDirent.filename (fun d => d.getFile m.hdr m.bytes) m.bytes m.files with
          | .error e => .error e
          | .ok s4 => .ok (baseSegs m.hdr.imageSize m.hdr.headerOffset m.bytes ++ s1 ++ s2 ++ [⟨.directory, dir⟩] ++ s4)

/-- `BootDiskImage.check_size`, ataridos.py:686-707.  A view of two bytes: none are there (`IndexError`), one is there
(`ValueError`). -/
def bootCheckSize (h : AHeader) (b : Bytes) : Except Err Unit :=
  match h.getPos 1 with
  | .error e => .error e
  | .ok _ =>
    match b.drop h.headerOffset with
    | [] => .error .indexError
    | [_] => .error .valueError
    | f0 :: f1 :: rest =>
      if le16 f0 f1 = 0xffff then .error .invalidDiskImage
      else
        match rest with
        | [] => .error .indexError
        | [_] => .error .valueError
        | l0 :: l1 :: _ =>
          let bload := le16 l0 l1
          let maxSectors : Int := ((0xc000 : Int) - bload) / h.sectorSize
          if (f1.toNat : Int) > maxSectors ∨ f1.toNat < 1 then .error .invalidDiskImage
          else if (bload : Int) > 0xc000 - (f1.toNat * h.sectorSize : Nat) then .error .invalidDiskImage
          else .ok ()

/-- `BootDiskImage.get_boot_segments`, ataridos.py:725-739, and `parse_segments` (no VTOC, directory or files) -/
def bootSegments (h : AHeader) (b : Bytes) : Except Err (List ISeg) :=
  match h.getSectors b 1 1 with
  | .error e => .error e
  | .ok data =>
    match viewRecord 6 data with
    | .error e => .error e
    | .ok () =>
      match (if (data.getD 0 0).toNat = 0 then bootSegsAt h b 6 (data.getD 1 0).toNat else .ok []) with
      | .error e => .error e
      | .ok s => .ok (baseSegs h.imageSize h.headerOffset b ++ s)

/-! ### Apple disks -/

/-- `get_pos` of every sector in a range, diskimages.py:64-74, 225-239: `NameError` (`ByteNotInFile166` is not imported) when
one of them is out of range -/
def slice33 (maxS : Nat) (b : Bytes) (first last : Nat) : Except Err Bytes :=
  if last < maxS then .ok (slice b (256 * first) (256 * last + 256)) else .error .nameError

/-- the sectors of the catalog, loop of `get_directory_segments`, dos33.py:533-544 (fuel as for `catLoop`) -/
def catChain33 (maxS : Nat) (b : Bytes) : Nat → Nat → Except Err Bytes
  | 0, _ => .error .hang
  | fuel + 1, s =>
    if s = 0 then .ok []
    else if ¬ s < maxS then .error .byteNotInFile
    else
      let d := sec33 b s
      if d.length ≠ 256 then .error .indexError
      else
        match catChain33 maxS b fuel (linkOf d) with
        | .error e => .error e
        | .ok rest => .ok (d ++ rest)

/-- `parse_segments` of a DOS 3.3 image: diskimages.py:261-270, dos33.py:486-566 -/
def DImg.segments (m : DImg) : Except Err (List ISeg) :=
  match slice33 m.maxSectors m.bytes 0 0 with
  | .error e => .error e
  | .ok b1 =>
    match slice33 m.maxSectors m.bytes 1 9 with
    | .error e => .error e
    | .ok b2 =>
      match slice33 m.maxSectors m.bytes 10 11 with
      | .error e => .error e
      | .ok b3 =>
        match slice33 m.maxSectors m.bytes 12 37 with
        | .error e => .error e
        | .ok b4 =>
          match slice33 m.maxSectors m.bytes 272 272 with
          | .error e => .error e
          | .ok v =>
            match catChain33 m.maxSectors m.bytes (m.maxSectors + 1) m.firstDir with
            | .error e => .error e
            | .ok c =>
              match fileSegs DDirent.filename (fun d => d.getFile m.maxSectors m.bytes) m.bytes m.files with
              | .error e => .error e
              | .ok s => .ok (baseSegs 143360 0 m.bytes ++
                  [⟨.boot1, b1⟩, ⟨.boot2, b2⟩, ⟨.relocator, b3⟩, ⟨.boot3, b4⟩, ⟨.vtoc, v⟩, ⟨.directory, c⟩] ++ s)

/-- `ProdosDiskImage(rawdata)`: dos33.py:652-686, `check_size` 371-381.  No image of this class is ever made. -/
def openProdos (b : Bytes) : Except Err Unit :=
  if b.length ≠ 143360 then .error .invalidDiskImage
  else if slice b 0 4 = [1, 56, 176, 3] then .error .unsupportedDiskImage
  else .error .invalidDiskImage

/-! ### the parser lists -/

/-- an Atari disk of which only header and bytes (and for KBoot the executable) matter -/
structure HImg where
  hdr : AHeader
  bytes : Bytes
  exe : Bytes := []
deriving DecidableEq, Repr

/-- what a file is taken for: `parser.image` -/
inductive Image
  | kboot (m : HImg) (segs : List ISeg)
  | sparta (m : SImg) (segs : List ISeg)
  | atari (m : AImg) (segs : List ISeg)
  | boot (m : HImg) (segs : List ISeg)
  | disk (m : HImg) (segs : List ISeg)
  | xex (segs : List XSeg)
  | cart (t : Nat) (five : Bool) (h : CartHeader)
  | mame (data : Bytes) (ranges : List (Nat × Nat))
  | dos33 (m : DImg) (segs : List ISeg)
  | bin (s : Seg)
  | rom (data : Bytes)

/-- a parser class: construct, check, make segments, wrap -/
def ImageClass.parser (c : ImageClass) (wrap : c.σ → Image) : ParserClass Image := fun raw strict => (c.parse strict raw).map wrap

/-- An image of an Atari disk: construction, the header and bytes the strict check looks at, the segments.
`strict_check`: diskimages.py:167-169; `relaxed_check` does nothing, 171-175. -/
def diskClass {τ : Type} (new : Bytes → Except Err τ) (hdr : τ → AHeader) (size : τ → Nat) (segs : τ → Except Err (List ISeg)) :
    ImageClass where
  σ := τ × List ISeg
  new := fun b => (new b).map fun m => (m, [])
  strictCheck := fun m => ((hdr m.1).strictCheck (size m.1)).map fun _ => m
  relaxedCheck := .ok
  parseSegments := fun m => (segs m.1).map fun s => (m.1, s)

/-- `KBootImage(rawdata)`, kboot.py:38-61 -/
def openKboot (b : Bytes) : Except Err HImg :=
  match openHeader b with
  | .error e => .error e
  | .ok h => (kbootFile b).map fun exe => { hdr := h, bytes := b, exe := exe }

/-- `BootDiskImage(rawdata)` -/
def openBoot (b : Bytes) : Except Err HImg :=
  match openHeader b with
  | .error e => .error e
  | .ok h => (bootCheckSize h b).map fun _ => { hdr := h, bytes := b }

/-- `AtariDiskImage(rawdata)`, ataridos.py:748-757: any header will do -/
def openDisk (b : Bytes) : Except Err HImg := (openHeader b).map fun h => { hdr := h, bytes := b }

/-- `KBootSegmentParser`, parsers.py:112-114 -/
def kbootParser : ParserClass Image :=
  (diskClass openKboot HImg.hdr (fun m => m.bytes.length) fun m => .ok (kbootSegments m.hdr m.bytes m.exe)).parser fun x => .kboot x.1 x.2

/-- `SpartaDosSegmentParser`, parsers.py:122-124 -/
def spartaParser : ParserClass Image :=
  (diskClass SImg.open SImg.hdr (fun m => m.bytes.length) SImg.segments).parser fun x => .sparta x.1 x.2

/-- `AtariDosSegmentParser`, parsers.py:117-119 -/
def atariParser : ParserClass Image :=
  (diskClass AImg.open AImg.hdr (fun m => m.bytes.length) AImg.segments).parser fun x => .atari x.1 x.2

/-- `AtariBootDiskSegmentParser`, parsers.py:127-129 -/
def bootParser : ParserClass Image :=
  (diskClass openBoot HImg.hdr (fun m => m.bytes.length) fun m => bootSegments m.hdr m.bytes).parser fun x => .boot x.1 x.2

/-- `AtariUnidentifiedSegmentParser`, parsers.py:132-134 -/
def diskParser : ParserClass Image :=
  (diskClass openDisk HImg.hdr (fun m => m.bytes.length) fun m => .ok (baseSegs m.hdr.imageSize m.hdr.headerOffset m.bytes)).parser
    fun x => .disk x.1 x.2

/-- `XexSegmentParser`, parsers.py:137-140; the class `AtariDosFile`, ataridos.py:265-332 -/
def xexParser : ParserClass Image :=
  ImageClass.parser
    { σ := Bytes × List XSeg, new := fun b => .ok (b, []), strictCheck := .ok, relaxedCheck := .ok
      parseSegments := fun m => (parseXex m.1).map fun s => (m.1, s) } fun x => .xex x.2

/-- `Atari8bitCartParser` and `Atari5200CartParser` for a type of cartridge, parsers.py:143-161, 403-415.  Making the segments
cannot fail (slices). -/
def cartParser (five : Bool) (t : Nat) : ParserClass Image :=
  ImageClass.parser
    { σ := CartHeader × Bytes, new := fun b => (openCart b t).map fun h => (h, b)
      strictCheck := fun m => (cartStrictCheck m.1 t five).map fun _ => m
      relaxedCheck := fun m => (cartRelaxedCheck m.2 m.1 t).map fun h => (h, m.2)
      parseSegments := .ok } fun x => .cart t five x.1

/-- the types of cartridge in the order of the parser lists: type 0 first (the class attribute, line 146), then the rows of the
table but for the first, sorted by size, rows of the same size in the order of the table; parsers.py:403-415,
`get_known_carts`, cartridge.py:99-104 -/
def cartTypes (five : Bool) : List Nat :=
  0 :: ((knownCarts.tail.mergeSort fun a b => a.size ≤ b.size).filter fun c => c.is5200 == five).map (·.id)

/-- `RomParser`, `Atari2600CartParser`, `Atari2600StarpathParser`, `VectrexParser`, parsers.py:164-181; `RomImage`,
cartridge.py:316-344 (the strict check is the same check of the size) -/
def romParser : ParserClass Image :=
  ImageClass.parser
    { σ := Bytes, new := fun b => (romCheckSize b.length).map fun _ => b
      strictCheck := fun b => (romCheckSize b.length).map fun _ => b, relaxedCheck := .ok, parseSegments := .ok } .rom

/-- `MameZipParser`, parsers.py:184-186; `MameZipImage`, mame.py:14-64.  `zip` is `none` for data that is no zip archive. -/
def mameParser (zip : Bytes → Except Err (Option (List ZipItem))) : ParserClass Image :=
  ImageClass.parser
    { σ := Bytes × List (Nat × Nat)
      new := fun b => match zip b with
        | .error e => .error e
        | .ok none => .error .invalidDiskImage
        | .ok (some items) => openMame items
      strictCheck := .ok, relaxedCheck := .ok, parseSegments := .ok } fun x => .mame x.1 x.2

/-- `Dos33SegmentParser`, parsers.py:189-191 (`BaseHeader.strict_check` does nothing, diskimages.py:86-87) -/
def dos33Parser : ParserClass Image :=
  ImageClass.parser
    { σ := DImg × List ISeg, new := fun b => (DImg.open b).map fun m => (m, []), strictCheck := .ok, relaxedCheck := .ok
      parseSegments := fun m => m.1.segments.map fun s => (m.1, s) } fun x => .dos33 x.1 x.2

/-- `ProdosSegmentParser`, parsers.py:199-201 -/
def prodosParser : ParserClass Image :=
  ImageClass.parser
    { σ := Empty, new := fun b => match openProdos b with | .error e => .error e | .ok () => .error .invalidDiskImage
      strictCheck := .ok, relaxedCheck := .ok, parseSegments := .ok } (fun x => nomatch x)

/-- `Dos33BinSegmentParser`, parsers.py:194-196; `Dos33BinFile`, dos33.py:600-641 -/
def binParser : ParserClass Image :=
  ImageClass.parser
    { σ := Bytes × Seg, new := fun b => .ok (b, ⟨0, []⟩), strictCheck := .ok, relaxedCheck := .ok
      parseSegments := fun m => (parseBsave m.1).map fun s => (m.1, s) } fun x => .bin x.2

/-- the parsers of `application/vnd.atari8bit.atr`, parsers.py:318-324 -/
def atrParsers : List (ParserClass Image) := [kbootParser, spartaParser, atariParser, bootParser, diskParser]

/-- `mime_parsers`, parsers.py:317-356, 403-415.  The detailed types of magic.py are no keys of the dictionary (and no
signature has one of them). -/
def imageParsers (zip : Bytes → Except Err (Option (List ZipItem))) : Mime → List (ParserClass Image)
  | .atr => atrParsers
  | .xex => [xexParser]
  | .cart8 => (cartTypes false).map (cartParser false)
  | .cart5200 => (cartTypes true).map (cartParser true)
  | .cart2600 => [romParser]
  | .starpath => [romParser]
  | .vectrex => [romParser]
  | .mame => [mameParser zip]
  | .rom => [romParser]
  | .appleDsk => [dos33Parser, prodosParser]
  | .appleBin => [binParser]
  | _ => []

/-- the libraries that detection relies on: decompressors, signature database, zip archives -/
structure Libs where
  dec : Decompressors
  sig : Bytes → Option Mime
  zip : Bytes → Except Err (Option (List ZipItem))

/-- `find_diskimage_from_data`, `__init__.py:57-82` -/
def detect (L : Libs) (data : Bytes) : Except CErr (Image × Mime) := findDiskimage L.dec L.sig (imageParsers L.zip) data

end Atr
