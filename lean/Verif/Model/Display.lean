import Verif.Model.Program
/-!
# What `list` and `crc` print: `/repo/atrcopy/__init__.py:178-199`, `__str__` and `extra_metadata` of the directory entries

A text is a list of characters, a `print` adds one text and a newline.
-/
namespace Atr

/-- printed text -/
abbrev Text := List Char

/-- `bytes.decode('latin1')`; for `decode("ascii", errors='ignore')` see `parseName33` -/
def latin1 (b : Bytes) : Text := b.map fun c => Char.ofNat c.toNat

/-- `%d` -/
def pctD : Int → Text
  | .ofNat n => Nat.toDigits 10 n
  | .negSucc n => '-' :: Nat.toDigits 10 (n + 1)

/-- `%0wd`: zeros after the sign -/
def pctZero (w : Nat) : Int → Text
  | .ofNat n => List.replicate (w - (Nat.toDigits 10 n).length) '0' ++ Nat.toDigits 10 n
  | .negSucc n => '-' :: (List.replicate (w - 1 - (Nat.toDigits 10 (n + 1)).length) '0' ++ Nat.toDigits 10 (n + 1))

/-- `%08x` -/
def pctHex (n : Nat) : Text := List.replicate (8 - (Nat.toDigits 16 n).length) '0' ++ Nat.toDigits 16 n

/-- `%-ws`, `%-wd`: blanks on the right -/
def pctLeft (w : Nat) (t : Text) : Text := t ++ List.replicate (w - t.length) ' '

/-- `%wd`: blanks on the left -/
def pctRight (w : Nat) (t : Text) : Text := List.replicate (w - t.length) ' ' ++ t

/-- `"c" if b else "e"` -/
def mark (b : Bool) (c e : Char) : Char := if b then c else e

/-- the beginning of all lines, `"File #%-2d (%s) " % (file_num, flags)` -/
def lineHead (num : Nat) (flags : Text) : Text := "File #".toList ++ pctLeft 2 (pctD num) ++ " (".toList ++ flags ++ ") ".toList

/-- `AtariDosDirent.summary`, ataridos.py:111-120 -/
def ADirent.summary (d : ADirent) : Text :=
  [mark d.openedOutput 'o' '.', mark d.dos2 '2' '.', mark d.mydos 'm' '.', mark d.inUse 'u' '.', mark d.deleted 'd' '.', mark d.locked '*' ' ']

/-- `AtariDosDirent.__str__`, ataridos.py:100-101 -/
def ADirent.line (d : ADirent) : Text :=
  lineHead d.fileNum d.summary ++ pctZero 3 d.startingSector ++ [' '] ++ pctLeft 8 (latin1 d.basename) ++ pctLeft 3 (latin1 d.ext) ++
    "  ".toList ++ pctZero 3 d.numSectors

/-- `KBootDirent`, kboot.py:8-28 (an image that has just been opened has no file name, diskimages.py:109).  `count` is the length of the
executable: `check_sane` leaves no image where it does not fit. -/
def kbootDirent (m : HImg) : ADirent :=
  { inUse := true, startingSector := 4, basename := [0x4b, 0x42, 0x4f, 0x4f, 0x54], ext := [0x58, 0x45, 0x58], numSectors := m.exe.length / 128 + 1 }

/-- `Dos33Dirent.file_type` and `type_to_text`, dos33.py:183-197 -/
def typeToText33 (t : Nat) : Char :=
  match t with
  | 0 => 'T' | 1 => 'I' | 2 => 'A' | 4 => 'B' | 8 => 'S' | 0x10 => 'R' | 0x20 => 'a' | 0x40 => 'b'
  | _ => '?'

/-- `Dos33Dirent.summary`, dos33.py:199-208 -/
def DDirent.summary (d : DDirent) : Text :=
  if d.deleted then ['D', ' '] else [mark d.locked '*' ' ', typeToText33 d.ftype]

/-- `Dos33Dirent.__str__`, dos33.py:177-178 -/
def DDirent.line (d : DDirent) : Text :=
  lineHead d.fileNum d.summary ++ pctZero 3 d.numSectors ++ [' '] ++ pctLeft 30 (latin1 d.filename) ++ [' '] ++ pctZero 3 d.track.toNat ++
    [' '] ++ pctZero 3 d.sector.toNat

/-- `str_timestamp`, spartados.py:84-88.  `date_array` and `time_array` are tuples of three bytes, so `stamp` has six. -/
def stampText : Bytes → Text
  | [a, b, c, d, e, f] => pctD a.toNat ++ ['/'] ++ pctD b.toNat ++ ['/'] ++ pctD c.toNat ++ [' '] ++ pctD d.toNat ++ [':'] ++ pctD e.toNat ++ [':'] ++ pctD f.toNat
  | _ => []

/-- the flags of `SpartaDosDirent.__str__`, spartados.py:35-40 -/
def SDirent.summary (d : SDirent) : Text :=
  [mark d.openedOutput 'o' '.', mark d.isDir 'D' '.', mark d.inUse 'u' '.', mark d.deleted 'd' '.', mark d.locked '*' ' ', ' '] ++ pctZero 3 d.startingSector

/-- `SpartaDosDirent.__str__`, spartados.py:34-41 -/
def SDirent.line (d : SDirent) : Text :=
  lineHead d.fileNum d.summary ++ pctLeft 8 (latin1 d.basename) ++ pctLeft 3 (latin1 d.ext) ++ "  ".toList ++ pctRight 8 (pctD d.length) ++
    "  ".toList ++ stampText d.stamp

/-- Python `sep.join(l)` -/
def joined (sep : Text) : List Text → Text
  | [] => []
  | [t] => t
  | t :: l => t ++ sep ++ joined sep l

/-- the names of the flags that are set, as `verbose_info` gives them -/
def flagsText (l : List (Bool × Text)) : Text := "flags=[".toList ++ joined ", ".toList ((l.filter (·.1)).map (·.2)) ++ [']']

/-- `AtariDosDirent.verbose_info` and `extra_metadata`, ataridos.py:122-134 -/
def ADirent.extra (d : ADirent) : Text :=
  flagsText [(d.openedOutput, "OUT".toList), (d.dos2, "DOS2".toList), (d.mydos, "MYDOS".toList), (d.inUse, "IN_USE".toList), (d.deleted, "DEL".toList),
    (d.locked, "LOCK".toList)]

/-- `SpartaDosDirent.verbose_info`, spartados.py:43-51; `extra_metadata` is that of `AtariDosDirent` -/
def SDirent.extra (d : SDirent) : Text :=
  flagsText [(d.openedOutput, "OUT".toList), (d.isDir, "DIR".toList), (d.inUse, "IN_USE".toList), (d.deleted, "DEL".toList), (d.locked, "LOCK".toList)]

/-- `str(tslist)`: `BaseSectorList.__str__`, utils.py:121-122, with `WriteableSector.__str__`, utils.py:75-76.  `_next_sector` is set to 0 and never
changed (the setter stores into `_next_sector_num`); `used` is the sector size (dos33.py:21). -/
def tsText (ts : List Nat) : Text :=
  joined ['\n'] (ts.zipIdx.map fun x =>
    [' '] ++ pctD x.2 ++ ": sector=".toList ++ pctD x.1 ++ " next=0 size=256 used=256".toList)

/-- `Dos33Dirent.extra_metadata`, dos33.py:223-228; `str` of a list of integers -/
def DDirent.extra (maxS : Nat) (b : Bytes) (d : DDirent) : Except Err Text :=
  (d.tsMap maxS b).map fun x =>
    "track/sector list at: ".toList ++ tsText x.1 ++ ['\n'] ++ "sector map: [".toList ++ joined ", ".toList (x.2.map fun s : Nat => pctD s) ++ [']']

/-- a directory entry as the loops of lines 180-199 use it: `str(dirent)`, `dirent.filename`, `image.get_file(dirent)`,
`dirent.extra_metadata(image)` -/
structure Row where
  line : Text
  name : Bytes
  data : Except Err Bytes
  extra : Except Err Text

/-- `image.files` -/
def Image.rows : Image → List Row
  | .atari m _ => m.files.map fun d => ⟨d.line, d.filename, d.getFile m.hdr m.bytes, .ok d.extra⟩
  | .dos33 m _ => m.files.map fun d => ⟨d.line, d.filename, d.getFile m.maxSectors m.bytes, d.extra m.maxSectors m.bytes⟩
  | .sparta m _ => m.files.map fun d => ⟨d.line, d.filename, d.getFile m.hdr m.bytes, .ok d.extra⟩
  | .kboot m _ => [⟨(kbootDirent m).line, (kbootDirent m).filename, .ok m.exe, .ok (kbootDirent m).extra⟩]
  | _ => []

/-! ### the checksum -/

/-- one bit of `zlib.crc32`: the shift register of the polynomial 0x04c11db7, reflected -/
def crcBit (s : BitVec 32) : BitVec 32 := if s.getLsbD 0 then (s >>> 1) ^^^ 0xedb88320#32 else s >>> 1

/-- one byte -/
def crcByte (s : BitVec 32) (b : UInt8) : BitVec 32 :=
  crcBit (crcBit (crcBit (crcBit (crcBit (crcBit (crcBit (crcBit (s ^^^ BitVec.ofNat 32 b.toNat))))))))

/-- `zlib.crc32(data) & 0xffffffff`, lines 185, 198 -/
def crc32 (b : Bytes) : Nat := (b.foldl crcByte 0xffffffff#32 ^^^ 0xffffffff#32).toNat

/-! ### the commands -/

/-- the texts printed by `list_files`, lines 178-190, and how it ends: after an error nothing more is printed.  `sums` is `-c`, `more` is `-m`. -/
def printList (sums more : Bool) (names : List Bytes) : List Row → List Text × Except Err Unit
  | [] => ([], .ok ())
  | r :: rs =>
    if names.isEmpty || names.contains r.name then
      match (if sums then r.data.map fun d => r.line ++ "  ".toList ++ pctHex (crc32 d) else .ok r.line) with
      | .error e => ([], .error e)
      | .ok t =>
        let x := printList sums more names rs
        if more then
          match r.extra with
          | .error e => ([t], .error e)
          | .ok u => (t :: u :: x.1, x.2)
        else (t :: x.1, x.2)
    else printList sums more names rs

/-- the texts printed by `crc_files`, lines 194-199 -/
def printCrc (names : List Bytes) : List Row → List Text × Except Err Unit
  | [] => ([], .ok ())
  | r :: rs =>
    if names.isEmpty || names.contains r.name then
      match r.data with
      | .error e => ([], .error e)
      | .ok d =>
        let x := printCrc names rs
        ((latin1 r.name ++ ": ".toList ++ pctHex (crc32 d)) :: x.1, x.2)
    else printCrc names rs

/-- `str(header)`, ataridos.py:372-373, 438-439 (without the closing parenthesis there) -/
def AHeader.summary (h : AHeader) : Text :=
  if h.headerOffset = 16 then
    "ATR Disk Image (size=".toList ++ pctD h.imageSize ++ " (".toList ++ pctD h.maxSectors ++ ['x'] ++ pctD h.sectorSize ++ "B), crc=".toList ++
      pctD h.crc ++ " flags=".toList ++ pctD h.flags ++ " unused=".toList ++ pctD h.unused ++ [')']
  else
    "XFD Disk Image (size=".toList ++ pctD h.imageSize ++ " (".toList ++ pctD h.maxSectors ++ ['x'] ++ pctD h.sectorSize ++ "B)".toList

/-- `str(image)` for Atari DOS disks, ataridos.py:477-478 -/
def AImg.summary (m : AImg) : Text :=
  m.hdr.summary ++ " Atari DOS Format: ".toList ++ pctD m.total ++ " usable sectors (".toList ++ pctD m.unused ++ " free), ".toList ++
    pctD m.files.length ++ " files".toList

/-- what is printed on the standard output: every text with a newline -/
def stdout (l : List Text) : Text := l.flatMap fun t => t ++ ['\n']

end Atr
