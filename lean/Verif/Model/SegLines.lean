import Verif.Model.Display
/-!
# What `segments` prints: `/repo/atrcopy/__init__.py:636-637`, `__str__` of the segment classes

A segment is shown with its class, its name and the numbers its `__str__` uses.  `say` stands for
`str(e)` of the exception of a file that cannot be read.
-/
namespace Atr

/-- `%x` and `%0wx`: zeros after the sign -/
def pctX (w : Nat) : Int → Text
  | .ofNat n => List.replicate (w - (Nat.toDigits 16 n).length) '0' ++ Nat.toDigits 16 n
  | .negSucc n => '-' :: (List.replicate (w - 1 - (Nat.toDigits 16 (n + 1)).length) '0' ++ Nat.toDigits 16 (n + 1))

/-- a segment as `__str__` sees it: `DefaultSegment`, `EmptySegment`, `ObjSegment` and its subclasses, `RawSectorsSegment` and its subclass.  Of these only
`EmptySegment` objects are made with an error. -/
inductive LSeg
  | plain (name : Text) (origin : Int) (size : Nat)
  | empty (name : Text) (error : Text)
  | obj (name : Text) (origin : Int) (size dataStart : Nat)
  | sectors (name : Text) (first num : Nat)
deriving DecidableEq, Repr

/-- `__str__`, segments.py:600-608, 1096-1100, 1123-1128, 1156-1163 -/
def LSeg.line : LSeg → Text
  | .plain name origin size =>
    name ++ " ($".toList ++ pctX 0 size ++ " bytes".toList ++ (if origin > 0 then " @ ".toList ++ pctX 4 origin else []) ++ ")".toList
  | .empty name error => name ++ " (empty file)".toList ++ (if error = [] then [] else ' ' :: error)
  | .obj name origin size dataStart =>
    name ++ " $".toList ++ pctX 4 origin ++ "-$".toList ++ pctX 4 (origin + size) ++ " ($".toList ++ pctX 4 size ++ " @ $".toList ++ pctX 4 dataStart ++
      ")".toList
  | .sectors name first num =>
    if num > 1 then name ++ " (sectors ".toList ++ pctD first ++ "-".toList ++ pctD (first + num - 1 : Nat) ++ ")".toList
    else name ++ " (sector ".toList ++ pctD first ++ ")".toList

/-- the name of a format of disks, ataridos.py:349, 436 -/
def AHeader.format (h : AHeader) : Text := if h.headerOffset = 16 then "ATR".toList else "XFD".toList

/-- the segments of a disk but for the files: diskimages.py:261-266, ataridos.py:592-650, 725-739, kboot.py:57-61.  `addr` is the load address in the boot record of
`n` bytes; `first` and `num` are the sectors of the VTOC.  All are made with a data start of 0. -/
def ISeg.shown (h : AHeader) (addr n first num vtoc2 : Nat) (s : ISeg) : LSeg :=
  match s.name with
  | .header => .obj (h.format ++ " Header".toList) 0 s.data.length 0
  | .raw => .sectors "Raw disk sectors".toList h.startingSectorLabel h.maxSectors
  | .bootSectors => .obj "Boot Sectors".toList addr s.data.length 0
  | .bootHeader => .obj "Boot Header".toList addr s.data.length 0
  | .bootCode => .obj "Boot Code".toList (addr + n : Nat) s.data.length 0
  | .vtoc => .sectors "VTOC".toList first num
  | .vtoc2 => .sectors "VTOC2".toList vtoc2 1
  | .directory => .sectors "Directory".toList 361 8
  | .kbootExe => .obj "KBoot Executable".toList (match h.getPos 4 with | .ok x => x.1 | .error _ => 0 : Nat) s.data.length 0
  | _ => .empty [] []

/-- the segment of a file, ataridos.py:652-667 within diskimages.py:301-309 -/
def ADirent.shown (say : Err → Text) (h : AHeader) (b : Bytes) (d : ADirent) : Except Err LSeg :=
  match d.readChain h b with
  | .error e => if e.isInvalidFile then .ok (.empty (latin1 d.filename) (say e)) else .error e
  | .ok l =>
    if byteOrder l = [] then .ok (.empty (latin1 d.filename) [])
    else
      match gather b (byteOrder l) with
      | .error e => if e.isInvalidFile then .ok (.empty (latin1 d.filename) (say e)) else .error e
      | .ok data => .ok (.plain (latin1 d.filename ++ " ".toList ++ pctD d.numSectors ++ "s@".toList ++ pctD d.startingSector) 0 data.length)

/-- one after the other; the first exception ends it -/
def shownAll {δ : Type} (f : δ → Except Err LSeg) : List δ → Except Err (List LSeg)
  | [] => .ok []
  | d :: ds =>
    match f d with
    | .error e => .error e
    | .ok s =>
      match shownAll f ds with
      | .error e => .error e
      | .ok ss => .ok (s :: ss)

/-- the segment for the whole file, parsers.py:77: `container_segment(r, 0, name=self.menu_name)` -/
def container (menu : Text) (b : Bytes) : LSeg := .plain menu 0 b.length

/-- `parser.segments` of an Atari DOS disk.  The boot record is read from sector 360 (see `atariBootSegs`).  There is one segment for each file (`fileSegs`), after
all others. -/
def AImg.shown (say : Err → Text) (m : AImg) : Except Err (List LSeg) :=
  match m.segments with
  | .error e => .error e
  | .ok segs =>
    match shownAll (ADirent.shown say m.hdr m.bytes) m.files with
    | .error e => .error e
    | .ok fs =>
      let addr := match m.hdr.getSectors m.bytes 360 360 with | .ok d => le16 (d.getD 2 0) (d.getD 3 0) | .error _ => 0
      .ok (container "Atari DOS Disk Image".toList m.bytes ::
        ((segs.take (segs.length - m.files.length)).map (ISeg.shown m.hdr addr 20 m.firstVtoc m.numVtoc.toNat m.vtoc2) ++ fs))

/-- `parser.segments` of a boot disk -/
def HImg.shownBoot (m : HImg) (segs : List ISeg) : List LSeg :=
  let addr := match m.hdr.getSectors m.bytes 1 1 with | .ok d => le16 (d.getD 2 0) (d.getD 3 0) | .error _ => 0
  container "Atari Boot Disk Image".toList m.bytes :: segs.map (ISeg.shown m.hdr addr 6 0 0 0)

/-- `parser.segments` of any other Atari disk -/
def HImg.shownDisk (m : HImg) (segs : List ISeg) : List LSeg :=
  container "Atari Disk Image".toList m.bytes :: segs.map (ISeg.shown m.hdr 0 0 0 0 0)

/-- `parser.segments` of a KBoot disk, kboot.py:57-61: `exe_start` is the position of sector 4 (`kbootFile`) -/
def HImg.shownKboot (m : HImg) (segs : List ISeg) : List LSeg :=
  container "KBoot Disk Image".toList m.bytes :: segs.map (ISeg.shown m.hdr 0 0 0 0 0)

/-- a segment of an executable as it is made by ataridos.py:304, 316, 325, 331 (arguments in the order of segments.py:1116) -/
def XSeg.shown (s : XSeg) : LSeg :=
  match s.kind with
  | .obj => .obj [] s.origin s.data.length s.pos
  | .run => .obj [] s.origin s.data.length s.pos
  | .incomplete => .obj "Incomplete Data".toList s.origin s.data.length s.pos
  | .short => .obj "Short Segment Header".toList 0 s.data.length 0
  | .odd => .obj "Incomplete Data".toList 0 s.data.length (s.pos + 1)

/-- `parser.segments` of an executable -/
def shownXex (b : Bytes) (segs : List XSeg) : List LSeg := container "XEX (Atari 8-bit executable)".toList b :: segs.map XSeg.shown

/-- `parser.segments` of a BSAVE file, dos33.py:620-641 -/
def shownBin (b : Bytes) (s : Seg) : List LSeg :=
  [container "BIN (Apple ][ executable)".toList b, .obj "BSAVE data".toList s.origin s.data.length 4]

/-- the banks of a cartridge with their numbers, cartridge.py:254-262 -/
def shownBanks (b : Bytes) (h : CartHeader) : Nat → List Nat → List LSeg
  | _, [] => []
  | i, o :: os =>
    .obj ("Bank #".toList ++ pctD (i + 1 : Nat)) h.bankOrigin (slice b (h.headerOffset + o * 1024) (h.headerOffset + o * 1024 + h.bankSize * 1024)).length 0 ::
      shownBanks b h (i + 1) os

/-- the numbers and names of `known_cart_types`, cartridge.py:15-94, in order -/
def cartNames : List (Nat × String) := [
  (0, ""),
  (57, "Standard 2 KB"),
  (58, "Standard 4 KB"),
  (59, "Right slot 4 KB"),
  (1, "Standard 8 KB"),
  (21, "Right slot 8 KB"),
  (2, "Standard 16 KB"),
  (44, "OSS 8 KB"),
  (15, "OSS one chip 16 KB"),
  (3, "OSS two chip (034M) 16 KB"),
  (45, "OSS two chip (043M) 16 KB"),
  (12, "XEGS 32 KB"),
  (13, "XEGS (banks 0-7) 64 KB"),
  (67, "XEGS (banks 8-15) 64 KB"),
  (14, "XEGS 128 KB"),
  (23, "XEGS 256 KB"),
  (24, "XEGS 512 KB"),
  (25, "XEGS 1 MB"),
  (33, "Switchable XEGS 32 KB"),
  (34, "Switchable XEGS 64 KB"),
  (35, "Switchable XEGS 128 KB"),
  (36, "Switchable XEGS 256 KB"),
  (37, "Switchable XEGS 512 KB"),
  (38, "Switchable XEGS 1 MB"),
  (22, "Williams 32 KB"),
  (8, "Williams 64 KB"),
  (9, "Express 64 KB"),
  (10, "Diamond 64 KB"),
  (11, "SpartaDOS X 64 KB"),
  (43, "SpartaDOS X 128 KB"),
  (17, "Atrax 128 KB"),
  (18, "Bounty Bob 40 KB"),
  (26, "MegaCart 16 KB"),
  (27, "MegaCart 32 KB"),
  (28, "MegaCart 64 KB"),
  (29, "MegaCart 128 KB"),
  (30, "MegaCart 256 KB"),
  (31, "MegaCart 512 KB"),
  (32, "MegaCart 1 MB"),
  (39, "Phoenix 8 KB"),
  (46, "Blizzard 4 KB"),
  (40, "Blizzard 16 KB"),
  (60, "Blizzard 32 KB"),
  (41, "Atarimax 128 KB Flash"),
  (42, "Atarimax 1 MB Flash"),
  (47, "AST 32 KB"),
  (48, "Atrax SDX 64 KB"),
  (49, "Atrax SDX 128 KB"),
  (50, "Turbosoft 64 KB"),
  (51, "Turbosoft 128 KB"),
  (52, "Ultracart 32 KB"),
  (53, "Low bank 8 KB"),
  (5, "DB 32 KB"),
  (54, "SIC! 128 KB"),
  (55, "SIC! 256 KB"),
  (56, "SIC! 512 KB"),
  (61, "MegaMax 2 MB"),
  (62, "The!Cart 128 MB"),
  (63, "Flash MegaCart 4 MB"),
  (64, "MegaCart 2 MB"),
  (65, "The!Cart 32 MB"),
  (66, "The!Cart 64 MB"),
  (20, "Standard 4 KB 5200"),
  (19, "Standard 8 KB 5200"),
  (4, "Standard 32 KB 5200"),
  (16, "One chip 16 KB 5200"),
  (6, "Two chip 16 KB 5200"),
  (7, "Bounty Bob 40 KB 5200")]

/-- `menu_name` of the parser for a type of cartridge: of the class itself for type 0, parsers.py:158, 163, and from the
name of the row of the table for the others, parsers.py:403-415 -/
def cartMenuName (five : Bool) (t : Nat) : Text :=
  if t = 0 then (if five then "Atari 5200 Cartridge" else "Atari Home Computer Cartridge").toList
  else (((cartNames.find? fun c => c.1 == t).map (·.2)).getD "").toList ++ " Cartridge".toList

/-- `parser.segments` of a cartridge of type `t`, cartridge.py:239-262 -/
def shownCart (b : Bytes) (five : Bool) (t : Nat) (h : CartHeader) : List LSeg :=
  container (cartMenuName five t) b ::
    ((if h.headerOffset > 0 then [.obj "Cart Header".toList 0 (slice b 0 h.headerOffset).length 0] else []) ++
      (.obj "Main Bank".toList h.mainOrigin
        (slice b (h.headerOffset + h.mainOffset * 1024) (h.headerOffset + h.mainOffset * 1024 + h.mainSize * 1024)).length 0 :: shownBanks b h 0 h.banks))

/-- the segment of a DOS 3.3 file, dos33.py:569-597, 355-359 -/
def DDirent.shown (say : Err → Text) (maxS : Nat) (b : Bytes) (d : DDirent) : Except Err LSeg :=
  match d.getFile maxS b with
  | .error e => if e.isInvalidFile then .ok (.empty (latin1 d.filename) (say e)) else .error e
  | .ok data =>
    match d.tsMap maxS b with
    | .error e => .error e
    | .ok (_, map) =>
      if (map.flatMap fun s => slice b (256 * s) (256 * s + 256)) = [] then .ok (.empty (latin1 d.filename) [])
      else
        .ok (.obj (d.summary ++ " ".toList ++ pctZero 3 d.numSectors ++ " ".toList ++ latin1 d.filename)
          (if typeToText33 d.ftype = 'B' then (le16 (data.getD 0 0) (data.getD 1 0) : Int) - 4 else 0) data.length 0)

/-- the segments of a DOS 3.3 disk but for the files, dos33.py:486-566 -/
def ISeg.shown33 (maxS : Nat) (s : ISeg) : LSeg :=
  match s.name with
  | .header => .obj "DOS 3.3 Header".toList 0 s.data.length 0
  | .raw => .sectors "Raw disk sectors".toList 0 maxS
  | .boot1 => .obj "Boot 1".toList 0x800 s.data.length 0
  | .boot2 => .obj "Boot 2".toList 0x3700 s.data.length 0
  | .relocator => .obj "Relocator".toList 0x1b00 s.data.length 0
  | .boot3 => .obj "Boot 3".toList 0x1d00 s.data.length 0
  | .vtoc => .sectors "VTOC".toList 272 1
  | .directory => .plain "Catalog".toList 0 s.data.length
  | _ => .empty [] []

/-- `parser.segments` of a DOS 3.3 disk -/
def DImg.shown (say : Err → Text) (m : DImg) : Except Err (List LSeg) :=
  match m.segments with
  | .error e => .error e
  | .ok segs =>
    match shownAll (DDirent.shown say m.maxSectors m.bytes) m.files with
    | .error e => .error e
    | .ok fs => .ok (container "DOS 3.3 Disk Image".toList m.bytes :: ((segs.take (segs.length - m.files.length)).map (ISeg.shown33 m.maxSectors) ++ fs))

/-- `SpartaDosDiskImage.get_file_segment`, spartados.py:229-245, with `start_read` and `read_sector` -/
def SDirent.fileSegment (h : AHeader) (b : Bytes) (d : SDirent) : Except Err LSeg :=
  if !d.isSane then .error .invalidDirent
  else
    match spartaMap h b d.startingSector with
    | .error e => .error e
    | .ok map =>
      match spartaRead h b map d.length with
      | .error e => .error e
      | .ok l =>
        if spartaOrder l = [] then .ok (.empty (latin1 d.filename) (stampText d.stamp))
        else
          match gather b (spartaOrder l) with
          | .error e => .error e
          | .ok data =>
            .ok (.plain (latin1 d.filename ++ " ".toList ++ pctD d.length ++ "@".toList ++ pctD d.startingSector ++ " ".toList ++ stampText d.stamp) 0
              data.length)

/-- the segment of a SpartaDOS file within diskimages.py:301-309 -/
def SDirent.shown (say : Err → Text) (h : AHeader) (b : Bytes) (d : SDirent) : Except Err LSeg :=
  match d.fileSegment h b with
  | .error e => if e.isInvalidFile then .ok (.empty (latin1 d.filename) (say e)) else .error e
  | .ok s => .ok s

/-- `segment.name = name`, spartados.py:224 -/
def LSeg.rename (name : Text) : LSeg → LSeg
  | .plain _ origin size => .plain name origin size
  | .empty _ error => .empty name error
  | .obj _ origin size dataStart => .obj name origin size dataStart
  | .sectors _ first num => .sectors name first num

/-- the segments of a SpartaDOS disk but for directory and files, spartados.py:181-208: `addr` is the load address of the boot record, `first` and `num` are the
sectors of the bitmap (converted with `int()`, segments.py:1149-1150) -/
def ISeg.shownSparta (h : AHeader) (addr first num : Nat) (s : ISeg) : LSeg :=
  match s.name with
  | .header => .obj (h.format ++ " Header".toList) 0 s.data.length 0
  | .raw => .sectors "Raw disk sectors".toList h.startingSectorLabel h.maxSectors
  | .bootHeader => .obj "Boot Header".toList addr s.data.length 0
  | .bootCode => .obj "Boot Code".toList (addr + 43 : Nat) s.data.length 0
  | .bitmap => .sectors "Bitmap".toList first num
  | _ => .empty [] []

/-- `parser.segments` of a SpartaDOS disk -/
def SImg.shown (say : Err → Text) (m : SImg) : Except Err (List LSeg) :=
  match m.segments with
  | .error e => .error e
  | .ok segs =>
    match spartaRootDirent m.hdr m.bytes m.rootDir with
    | .error e => .error e
    | .ok none => .error .attributeError
    | .ok (some d) =>
      match d.fileSegment m.hdr m.bytes with
      | .error e => .error e
      | .ok dir =>
        match shownAll (SDirent.shown say m.hdr m.bytes) m.files with
        | .error e => .error e
        | .ok fs =>
          let data := match m.hdr.getSectors m.bytes 1 1 with | .ok d => d | .error _ => []
          .ok (container "Sparta DOS Disk Image".toList m.bytes ::
            ((segs.take (segs.length - m.files.length - 1)).map
              (ISeg.shownSparta m.hdr (le16 (data.getD 2 0) (data.getD 3 0)) (le16 (data.getD 16 0) (data.getD 17 0)) (data.getD 15 0).toNat) ++
              dir.rename (latin1 d.filename) :: fs))

/-- `parser.segments` of a MAME archive, mame.py:58-64: the names of the entries and their ranges in the unpacked data.  The container is made from the archive itself
(parsers.py:71-72). -/
def shownMame (b data : Bytes) (names : List Text) (ranges : List (Nat × Nat)) : List LSeg :=
  container "MAME ROM Zipfile".toList b :: List.zipWith (fun n r => .obj n r.1 (slice data r.1 r.2).length r.1) names ranges

/-- the menu names of the parsers for ROM images, parsers.py:164-181 -/
def romMenuName : Mime → Text
  | .cart2600 => "Atari 2600 Cartridge".toList
  | .starpath => "Atari 2600 Starpath Cassette".toList
  | .vectrex => "Vectrex Cartridge".toList
  | _ => "ROM Image".toList

/-- `parser.segments` of a ROM image, cartridge.py:331-334 -/
def shownRom (t : Mime) (b : Bytes) : List LSeg := [container (romMenuName t) b, .obj "Main Bank".toList 0 b.length 0]

/-- `print("\n".join([str(a) for a in parser.segments]))`, line 637: the same as one line for each -/
def printSegments (l : List LSeg) : Text := stdout (l.map LSeg.line)

end Atr
