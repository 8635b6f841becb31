import Verif.Model.Py
/-!
# Containers and parser selection: container.py, dcm.py, parsers.py, magic.py, `find_diskimage_from_data`

The decompressors of the standard library (`gzip`, `bz2`, `lzma`), the signature database (`signatures.py`, a dictionary
keyed by size and SHA-1) and the image classes are parameters.
-/
namespace Atr

/-- exceptions that reading through a decompressor can raise; `other` stands for all further ones (`zlib.error`, …) -/
inductive ExtErr
  | os | eof | lzma | other
deriving DecidableEq, Repr

/-- an exception of the package or of a decompressor -/
inductive CErr
  | py (e : Err)
  | ext (e : ExtErr)
deriving DecidableEq, Repr

/-- `DiskImageContainer.__unpack_raw_data`, container.py:24-31: `EOFError` means "not this container" -/
def unpackRaw (unpack : Bytes → Except CErr Bytes) (raw : Bytes) : Except CErr Bytes :=
  match unpack raw with
  | .error (.ext .eof) => .error (.py .invalidContainer)
  | r => r

/-- `GZipContainer.unpack_bytes` and `BZipContainer.unpack_bytes`, container.py:52-72: only `OSError` is caught -/
def osUnpack (dec : Bytes → Except ExtErr Bytes) (raw : Bytes) : Except CErr Bytes :=
  match dec raw with
  | .ok b => .ok b
  | .error .os => .error (.py .invalidContainer)
  | .error e => .error (.ext e)

/-- `LZMAContainer.unpack_bytes`, container.py:74-83: only `LZMAError` is caught -/
def lzmaUnpack (dec : Bytes → Except ExtErr Bytes) (raw : Bytes) : Except CErr Bytes :=
  match dec raw with
  | .ok b => .ok b
  | .error .lzma => .error (.py .invalidContainer)
  | .error e => .error (.ext e)

/-- `DCMContainer.valid_densities`, dcm.py:9-13 (the keys) -/
def dcmDensities : List UInt8 := [0, 1, 2]

/-- `DCMContainer.unpack_bytes`, dcm.py:24-48, with `get_next`, 15-22 -/
def dcmUnpack (raw : Bytes) : Except CErr Bytes :=
  match raw[0]? with
  | none => .error (.py .invalidContainer)
  | some archiveType =>
    if archiveType = 0xf9 ∨ archiveType = 0xfa then
      match raw[1]? with
      | none => .error (.py .invalidContainer)
      | some flags =>
        if flags &&& 0x1f ≠ 1 then .error (.py .invalidContainer)
        else if (flags >>> 5) &&& 3 ∉ dcmDensities then .error (.py .invalidContainer)
        else .error (.py .unsupportedContainer)
    else .error (.py .invalidContainer)

/-- the three decompressors -/
structure Decompressors where
  gzip : Bytes → Except ExtErr Bytes
  bzip : Bytes → Except ExtErr Bytes
  lzma : Bytes → Except ExtErr Bytes

/-- `known_containers`, parsers.py:204-209 -/
def knownContainers (d : Decompressors) : List (Bytes → Except CErr Bytes) :=
  [unpackRaw (osUnpack d.gzip), unpackRaw (osUnpack d.bzip), unpackRaw (lzmaUnpack d.lzma), unpackRaw dcmUnpack]

/-- `guess_container`, parsers.py:212-225; the result is `found.unpacked` -/
def guessContainer : List (Bytes → Except CErr Bytes) → Bytes → Except CErr (Option Bytes)
  | [], _ => .ok none
  | c :: cs, raw =>
    match c raw with
    | .ok b => .ok (some b)
    | .error (.py .invalidContainer) => guessContainer cs raw
    | .error e => .error e

/-- What `SegmentParser.parse` uses of an image class; `σ` is the image object. -/
structure ImageClass where
  σ : Type
  new : Bytes → Except Err σ
  strictCheck : σ → Except Err σ
  relaxedCheck : σ → Except Err σ
  parseSegments : σ → Except Err σ

/-- `check_image`, parsers.py:95-102 -/
def ImageClass.checkImage (c : ImageClass) (strict : Bool) (im : c.σ) : Except Err c.σ :=
  if strict then
    match c.strictCheck im with
    | .ok im => .ok im
    | .error e => if e.isAtr then .error .invalidSegmentParser else .error e
  else c.relaxedCheck im

/-- the body of the `try` in `parse`, parsers.py:75-78 -/
def ImageClass.parseBody (c : ImageClass) (strict : Bool) (raw : Bytes) : Except Err c.σ :=
  match c.new raw with
  | .error e => .error e
  | .ok im =>
    match c.checkImage strict im with
    | .error e => .error e
    | .ok im => c.parseSegments im

/-- `SegmentParser(segment_data, strict)`: `parse`, parsers.py:70-83 (making the container segment cannot fail) -/
def ImageClass.parse (c : ImageClass) (strict : Bool) (raw : Bytes) : Except Err c.σ :=
  match c.parseBody strict raw with
  | .ok im => .ok im
  | .error .unsupportedDiskImage => .error .unsupportedDiskImage
  | .error e => if e.isAtr then .error .invalidSegmentParser else .error e

/-- A parser class as the selection functions see it: constructor with the strict flag; `ρ` is the parser object. -/
abbrev ParserClass (ρ : Type) := Bytes → Bool → Except Err ρ

/-- the loop over `parsers` of `guess_parser_for_mime`, parsers.py:257-268 (`strict = true`) and of
`guess_parser_by_size`, 241-248 (`strict = false`) -/
def tryParsers {ρ : Type} (strict : Bool) (raw : Bytes) : List (ParserClass ρ) → Except Err (Option ρ)
  | [] => .ok none
  | p :: ps =>
    match p raw strict with
    | .ok x => .ok (some x)
    | .error .invalidSegmentParser => tryParsers strict raw ps
    | .error e => .error e

/-- the MIME types of parsers.py:317-356 and of the `magic` table, magic.py:7-51 -/
inductive Mime
  | atr | xex | cart8 | cart5200 | cart2600 | starpath | vectrex | mame | rom | appleDsk | appleBin
  | getawayPd | getawayXex | getaway | jumpmanTester | jumpman
deriving DecidableEq, Repr

/-- `mime_parse_order`, parsers.py:359-368 -/
def mimeParseOrder : List Mime := [.atr, .xex, .cart8, .cart5200, .mame, .appleDsk, .appleBin, .rom]

/-- a line of a signature: a slice with the expected bytes, or a position with the expected byte -/
inductive SigItem
  | range (i j : Nat) (expected : Bytes)
  | byte (i : Nat) (expected : UInt8)

/-- one step of `check_signature`, magic.py:55-61.  A slice is clipped to the data, a single position is not. -/
def SigItem.check (raw : Bytes) : SigItem → Except Err Bool
  | .range i j e => .ok (slice raw i j == e)
  | .byte i e => match raw[i]? with
    | none => .error .indexError
    | some b => .ok (b == e)

/-- `check_signature`, magic.py:54-62 -/
def checkSignature (raw : Bytes) : List SigItem → Except Err Bool
  | [] => .ok true
  | s :: ss =>
    match s.check raw with
    | .error e => .error e
    | .ok false => .ok false
    | .ok true => checkSignature raw ss

/-- `magic`, magic.py:7-51: the detailed type, the general type it starts with, the signature -/
def magicTable : List (Mime × Mime × List SigItem) :=
  [(.getawayPd, .atr, [.range 8 10 [0x82, 0x39], .range 12 16 [0x67, 0x21, 0x70, 0x64]]),
   (.getawayXex, .xex, [.range 0 6 [0xff, 0xff, 0x80, 0x2a, 0xff, 0x8a]]),
   (.getaway, .atr, [.range 0x10 0x19 [0x00, 0xc1, 0x80, 0x0f, 0xcc, 0x22, 0x18, 0x60, 0x0e]]),
   (.jumpmanTester, .atr, [.range 0 5 [0x96, 0x02, 0xd0, 0x05, 0x80], .byte (0x0196 + 0x3f) 0x4c, .byte (0x0196 + 0x48) 0x20,
     .byte (0x0196 + 0x4b) 0x60, .byte (0x0196 + 0x4c) 0xff]),
   (.jumpman, .atr, [.range 0 5 [0x96, 0x02, 0x80, 0x16, 0x80], .byte (0x0810 + 0x3f) 0x4c, .byte (0x0810 + 0x48) 0x20,
     .byte (0x0810 + 0x4b) 0x60, .byte (0x0810 + 0x4c) 0xff])]

/-- `guess_detail_for_mime`, magic.py:65-72, for the general types (the function is only called with these);
`entry['mime'].startswith(mime)` is equality with the general type of the entry -/
def guessDetailGo (mime : Mime) (raw : Bytes) : List (Mime × Mime × List SigItem) → Except Err Mime
  | [] => .ok mime
  | (detail, base, sig) :: es =>
    if base = mime then
      match checkSignature raw sig with
      | .error e => .error e
      | .ok true => .ok detail
      | .ok false => guessDetailGo mime raw es
    else guessDetailGo mime raw es

/-- `guess_detail_for_mime`, magic.py:65-72 -/
def guessDetail (mime : Mime) (raw : Bytes) : Except Err Mime := guessDetailGo mime raw magicTable

/-- `guess_parser_by_size`, parsers.py:228-255.  `sig` looks up size and hash in the signature database. -/
def guessParserBySize {ρ : Type} (sig : Bytes → Option Mime) (parsers : Mime → List (ParserClass ρ)) (raw : Bytes) :
    Except Err (Option Mime × Option ρ) :=
  match sig raw with
  | none => .ok (none, none)
  | some mime =>
    match tryParsers false raw (parsers mime) with
    | .error e => .error e
    | .ok found => .ok (some mime, found)

/-- the loop over `mime_parse_order`, `__init__.py:66-79` -/
def findByMime {ρ : Type} (parsers : Mime → List (ParserClass ρ)) (raw : Bytes) : List Mime → Except Err (ρ × Mime)
  | [] => .error .unsupportedDiskImage
  | m :: ms =>
    match tryParsers true raw (parsers m) with
    | .error e => .error e
    | .ok none => findByMime parsers raw ms
    | .ok (some p) =>
      match guessDetail m raw with
      | .error e => .error e
      | .ok m' => .ok (p, m')

/-- `find_diskimage_from_data` after unpacking, `__init__.py:63-82` -/
def findParser {ρ : Type} (sig : Bytes → Option Mime) (parsers : Mime → List (ParserClass ρ)) (raw : Bytes) : Except Err (ρ × Mime) :=
  match guessParserBySize sig parsers raw with
  | .error e => .error e
  | .ok (some mime, some p) => .ok (p, mime)
  | .ok (_, _) => findByMime parsers raw mimeParseOrder

/-- an exception of the package seen as one of either kind -/
def liftErr {α : Type} : Except Err α → Except CErr α
  | .ok a => .ok a
  | .error e => .error (.py e)

/-- `find_diskimage_from_data`, `__init__.py:57-82` -/
def findDiskimage {ρ : Type} (d : Decompressors) (sig : Bytes → Option Mime) (parsers : Mime → List (ParserClass ρ)) (data : Bytes) :
    Except CErr (ρ × Mime) :=
  match guessContainer (knownContainers d) data with
  | .error e => .error e
  | .ok c => liftErr (findParser sig parsers (c.getD data))

/-- the loop of `guess_parser_for_system`, parsers.py:271-278; `starts` is `mime.startswith(mime_base)` -/
def guessParserForSystem {ρ : Type} (starts : Mime → Bool) (parsers : Mime → List (ParserClass ρ)) (raw : Bytes) :
    List Mime → Except Err (Option (Mime × ρ))
  | [] => .ok none
  | m :: ms =>
    if starts m then
      match tryParsers true raw (parsers m) with
      | .error e => .error e
      | .ok none => guessParserForSystem starts parsers raw ms
      | .ok (some p) =>
        match guessDetail m raw with
        | .error e => .error e
        | .ok m' => .ok (some (m', p))
    else guessParserForSystem starts parsers raw ms

/-- `iter_parsers` after unpacking, parsers.py:285-293; `none` stands for a returned parser of `None` (whatever the type
beside it) -/
def iterParser {ρ : Type} (sig : Bytes → Option Mime) (parsers : Mime → List (ParserClass ρ)) (raw : Bytes) : Except Err (Option (Mime × ρ)) :=
  match guessParserBySize sig parsers raw with
  | .error e => .error e
  | .ok (some mime, some p) => .ok (some (mime, p))
  | .ok (_, _) => guessParserForSystem (fun _ => true) parsers raw mimeParseOrder

/-- `iter_parsers`, parsers.py:281-293 -/
def iterParsers {ρ : Type} (d : Decompressors) (sig : Bytes → Option Mime) (parsers : Mime → List (ParserClass ρ)) (data : Bytes) :
    Except CErr (Option (Mime × ρ)) :=
  match guessContainer (knownContainers d) data with
  | .error e => .error e
  | .ok c => liftErr (iterParser sig parsers (c.getD data))

end Atr
