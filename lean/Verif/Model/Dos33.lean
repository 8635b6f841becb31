import Verif.Model.Utils
import Verif.Model.Cli
/-!
# Apple DOS 3.3 images: `/repo/atrcopy/dos33.py`, `/repo/atrcopy/diskimages.py`

Images have exactly 143360 bytes (560 sectors of 256 bytes, `Dos33Header.check_size`, dos33.py:371-381); the code never
changes the length.  The number of sectors `maxSectors` comes from the VTOC and may be larger or smaller than 560.  A
sector at or beyond 560 that passes the range check is an empty slice.
-/
namespace Atr

/-- `sector_from_track`, diskimages.py:76-77, on bytes (no overflow: NumPy scalar times Python int is `int64`) -/
def secOfTS (t s : UInt8) : Nat := t.toNat * 16 + s.toNat

/-- the bytes of sector `s`, `get_raw_bytes`, diskimages.py:215-217; position `256 * s` by `BaseHeader.get_pos`,
diskimages.py:64-74 -/
def sec33 (b : Bytes) (s : Nat) : Bytes := slice b (256 * s) (256 * s + 256)

/-- `get_sectors(s)`, diskimages.py:235-243.  An invalid sector number makes `get_pos` raise `NameError`
(`ByteNotInFile166` is not imported in diskimages.py). -/
def getSec33 (maxS : Nat) (b : Bytes) (s : Nat) : Except Err Bytes :=
  if s < maxS then .ok (sec33 b s) else .error .nameError

/-! ### directory entries -/

/-- `Dos33Dirent`, dos33.py:161-176.  `locked` holds 0 or 128 after parsing and `False` after `set_values`; a Boolean
is enough.  The file type is `_file_type`. -/
structure DDirent where
  fileNum : Nat := 0
  ftype : Nat := 0
  locked : Bool := false
  deleted : Bool := false
  track : UInt8 := 0
  sector : UInt8 := 0
  filename : Bytes := []
  numSectors : Nat := 0
  isSane : Bool := true
deriving DecidableEq, Repr

/-- `flag`, dos33.py:218-220.  A parsed locked entry has `locked = 128`, so `0x80 * int(locked)` is `0x4000`. -/
def DDirent.flag (d : DDirent) : Nat :=
  if d.deleted then 0xff else d.ftype ||| (if d.locked then 0x4000 else 0)

/-- `sanity_check`, dos33.py:284-294 -/
def DDirent.sanityCheck (maxS : Nat) (d : DDirent) : Bool :=
  if d.deleted then true
  else if d.track = 0 then false
  else if ¬ secOfTS d.track d.sector < maxS then false
  else if d.numSectors > maxS then false
  else true

/-- `(data[3:0x20] - 0x80).tobytes().rstrip().decode("ascii", errors='ignore')`, dos33.py:243 -/
def parseName33 (b : Bytes) : Bytes := (rstripWs ((slice b 3 0x20).map (· - 0x80))).filter (· < 0x80)

/-- `parse_raw_dirent`, dos33.py:230-245; `b` has 35 bytes -/
def DDirent.parse (maxS : Nat) (fileNum : Nat) (b : Bytes) : DDirent :=
  let t := b.getD 0 0
  let f := b.getD 2 0
  let d : DDirent :=
    { fileNum := fileNum
      deleted := t == 0xff
      track := if t == 0xff then b.getD 0x20 0 else t
      sector := b.getD 1 0
      ftype := f.toNat % 128
      locked := 128 ≤ f.toNat
      filename := parseName33 b
      numSectors := le16 (b.getD 33 0) (b.getD 34 0) }
  { d with isSane := d.sanityCheck maxS }

/-- `encode_dirent`, dos33.py:247-259.  A non-ASCII name raises `UnicodeEncodeError`, a name of more than 30 characters
a shape mismatch (both `ValueError`).  The store of `flag` into a byte wraps. -/
def DDirent.encode (d : DDirent) : Except Err Bytes :=
  if ¬ (∀ c ∈ d.filename, c < 0x80) then .error .valueError
  else if 30 < d.filename.length then .error .valueError
  else
    let name := d.filename.map (· ||| 0x80) ++ List.replicate (30 - d.filename.length) 0xa0
    let name := if d.deleted then name.set 29 d.track else name
    .ok ([if d.deleted then 0xff else d.track, d.sector, UInt8.ofNat d.flag] ++ name ++ enc16 d.numSectors)

/-- `mark_deleted`, dos33.py:261-262 -/
def DDirent.markDeleted (d : DDirent) : DDirent := { d with deleted := true }

/-- `set_values`, dos33.py:349-353: the name is cut to 30 characters and padded with blanks; `ftype` is the value of
`text_to_type.get(filetype, 0x04)` -/
def DDirent.setValues (name : Bytes) (ftype : Nat) : DDirent :=
  { filename := padRight 30 (name.take 30), ftype := ftype }

/-- `text_to_type.get(filetype, 0x04)`, dos33.py:181-192, 351; the argument is the character of the type -/
def textToType33 (c : Char) : Nat :=
  match c with
  | 'T' => 0 | 'I' => 1 | 'A' => 2 | 'B' => 4 | 'S' => 8 | 'R' => 0x10 | 'a' => 0x20 | 'b' => 0x40
  | _ => 4

/-! ### track/sector lists -/

/-- the pairs from offset 12 on: `get_tslist`, dos33.py:35-43 -/
def tsPairsOf (d : Bytes) : List Nat :=
  (chunks 2 (d.drop 12)).map fun p => secOfTS (p.getD 0 0) (p.getD 1 0)

/-- `next_sector_num` of a T/S sector, dos33.py:45-49, and the link of a catalog sector, dos33.py:467 -/
def linkOf (d : Bytes) : Nat := secOfTS (d.getD 1 0) (d.getD 2 0)

/-- loop of `get_track_sector_list`, dos33.py:300-308: numbers and contents of the T/S sectors.  `Dos33TSSector(data=…)`
copies the data into a zeroed sector.  The loop stops only at a zero link; when the fuel (more than the number of valid
sectors) is used up, a sector has been visited twice and Python never stops. -/
def tsLoop (maxS : Nat) (b : Bytes) : Nat → Nat → Except Err (List (Nat × Bytes))
  | 0, _ => .error .hang
  | fuel + 1, s =>
    if s = 0 then .ok []
    else if ¬ s < maxS then .error .byteNotInFile
    else
      let d := (WSector.ofData 256 (sec33 b s)).data
      match tsLoop maxS b fuel (linkOf d) with
      | .error e => .error e
      | .ok l => .ok ((s, d) :: l)

/-- Python `l[0:e]` for an integer `e` -/
def pySliceTo {α : Type} (l : List α) (e : Int) : List α :=
  if 0 ≤ e then l.take e.toNat else l.take (l.length - (-e).toNat)

/-- `get_track_sector_list`, dos33.py:296-311: T/S sectors and sector map -/
def DDirent.tsMap (maxS : Nat) (b : Bytes) (d : DDirent) : Except Err (List Nat × List Nat) :=
  match tsLoop maxS b (maxS + 1) (secOfTS d.track d.sector) with
  | .error e => .error e
  | .ok l =>
    .ok (l.map (·.1), pySliceTo (l.flatMap fun x => tsPairsOf x.2) ((d.numSectors : Int) - l.length))

/-- `get_sectors_in_vtoc`, dos33.py:313-320 -/
def DDirent.sectorsInVtoc (maxS : Nat) (b : Bytes) (d : DDirent) : Except Err (List Nat) :=
  match d.tsMap maxS b with
  | .error e => .error e
  | .ok (ts, map) => .ok (ts ++ map)

/-- positions read by the loop of `get_file_segment`, dos33.py:575-582, with `read_sector` 330-339: every sector must be
valid (else `NameError`); an empty map reads sector -1 -/
def readPositions (maxS : Nat) : List Nat → Except Err (List Nat)
  | [] => .ok []
  | s :: ss =>
    if ¬ s < maxS then .error .nameError
    else
      match readPositions maxS ss with
      | .error e => .error e
      | .ok ps => .ok (256 * s :: ps)

/-- `get_file(dirent)`: `start_read` dos33.py:322-328, `get_file_segment` 575-597, `tobytes`.  The name, origin and
style of the segment are left out.  A sector beyond the end of the image has no bytes (`process_raw_sector`, 341-344, counts
what is there), so it is skipped; when nothing is left the result is an `EmptySegment` on the whole image.  For a binary file
`get_binary_start_address` (355-359) looks at the first two bytes of the first sector, which raises `IndexError` if that
sector is beyond the image. -/
def DDirent.getFile (maxS : Nat) (b : Bytes) (d : DDirent) : Except Err Bytes :=
  if ¬ d.isSane then .error .invalidDirent
  else
    match d.tsMap maxS b with
    | .error e => .error e
    | .ok (_, []) => .error .nameError
    | .ok (_, s :: map) =>
      match readPositions maxS (s :: map) with
      | .error e => .error e
      | .ok ps =>
        let data := ps.flatMap fun p => slice b p (p + 256)
        if data = [] then .ok b
        else if d.ftype = 4 ∧ b.length ≤ 256 * s + 1 then .error .indexError
        else .ok data

/-! ### catalog -/

/-- inner loop of `get_directory`, dos33.py:468-482, on the entries of one catalog sector: it ends at an entry whose
flag is 0 -/
def scanCatSec (maxS : Nat) : Nat → List Bytes → List DDirent
  | _, [] => []
  | num, e :: es =>
    let d := DDirent.parse maxS num e
    if d.flag = 0 then [] else d :: scanCatSec maxS (num + 1) es

/-- the seven entries of a catalog sector, dos33.py:468-470 -/
def catEntries (d : Bytes) : List Bytes := chunks 35 (d.drop 11)

/-- outer loop of `get_directory`, dos33.py:464-483; a sector beyond the image is empty, so `values[1]` raises
`IndexError`.  Fuel as for `tsLoop`. -/
def catLoop (maxS : Nat) (b : Bytes) : Nat → Nat → Nat → Except Err (List DDirent)
  | 0, _, _ => .error .hang
  | fuel + 1, s, num =>
    if s = 0 then .ok []
    else if ¬ s < maxS then .error .byteNotInFile
    else
      let d := sec33 b s
      if d.length ≠ 256 then .error .indexError
      else
        let ds := scanCatSec maxS num (catEntries d)
        match catLoop maxS b fuel (linkOf d) (num + ds.length) with
        | .error e => .error e
        | .ok rest => .ok (ds ++ rest)

/-! ### image -/

/-- `Dos33DiskImage` -/
structure DImg where
  bytes : Bytes
  firstDir : Nat := 287
  maxSectors : Nat := 560
  tsPairs : Nat := 0
  files : List DDirent := []
  allSane : Bool := true
deriving DecidableEq, Repr

/-- `get_boot_sector_info`, dos33.py:408-424; the look at sector 286 only logs -/
def DImg.getBootInfo (m : DImg) : Except Err Unit :=
  match getSec33 m.maxSectors m.bytes 0 with
  | .error e => .error e
  | .ok d0 =>
    if slice d0 0 4 = [1, 56, 176, 3] then .error .invalidDiskImage
    else
      match getSec33 m.maxSectors m.bytes 272 with
      | .error e => .error e
      | .ok d =>
        if d.getD 3 0 = 3 then
          if d.getD 1 0 < 35 ∧ d.getD 2 0 < 16 then
            match getSec33 m.maxSectors m.bytes 286 with
            | .error e => .error e
            | .ok _ => .ok ()
          else .error .invalidDiskImage
        else .ok ()

/-- `get_vtoc`, dos33.py:445-458.  The sector size is forced to 256. -/
def DImg.getVtoc : Proc DImg Unit := fun m =>
  match getSec33 m.maxSectors m.bytes 272 with
  | .error e => (.error e, m)
  | .ok d =>
    let m := { m with
      firstDir := secOfTS (d.getD 1 0) (d.getD 2 0)
      maxSectors := (d.getD 0x34 0).toNat * (d.getD 0x35 0).toNat
      tsPairs := (d.getD 0x27 0).toNat }
    if m.firstDir < m.maxSectors then (.ok (), m) else (.error .byteNotInFile, m)

/-- `get_directory`, dos33.py:460-484.  (If the loop raises, `all_sane` is left alone here.) -/
def DImg.getDirectory : Proc DImg (List DDirent) := fun m =>
  match catLoop m.maxSectors m.bytes (m.maxSectors + 1) m.firstDir 0 with
  | .error e => (.error e, m)
  | .ok ds =>
    (.ok ds, { m with files := ds.filter (fun d => d.isSane && !d.deleted), allSane := m.allSane && ds.all (·.isSane) })

/-- `get_metadata`, diskimages.py:161-165, 201-203 -/
def DImg.getMetadata : Proc DImg Unit := fun m =>
  match m.getBootInfo with
  | .error e => (.error e, m)
  | .ok _ =>
    match DImg.getVtoc m with
    | (.error e, m) => (.error e, m)
    | (.ok _, m) =>
      match DImg.getDirectory m with
      | (.error e, m) => (.error e, m)
      | (.ok _, m) => if m.allSane then (.ok (), m) else (.error .invalidDiskImage, m)

/-- `Dos33DiskImage(rawdata)`: diskimages.py:103-119, 154-159; `check_size`, dos33.py:371-381 -/
def DImg.open (b : Bytes) : Except Err DImg :=
  if b.length ≠ 143360 then .error .invalidDiskImage
  else
    match DImg.getMetadata { bytes := b } with
    | (.error e, _) => .error e
    | (.ok _, m) => .ok m

/-- `find_dirent`, diskimages.py:281-288 -/
def DImg.findDirent (m : DImg) (name : Bytes) : Except Err DDirent :=
  match m.files.find? (fun d => d.filename == name) with
  | some d => .ok d
  | none => .error .fileNotFound

/-- `find_file`, diskimages.py:290-292 -/
def DImg.findFile (m : DImg) (name : Bytes) : Except Err Bytes :=
  match m.findDirent name with
  | .error e => .error e
  | .ok d => d.getFile m.maxSectors m.bytes

/-! ### VTOC -/

/-- `vtoc_bit_reorder_index`, dos33.py:62: every group of sixteen is reversed -/
def reorder33 (i : Nat) : Nat := 16 * (i / 16) + (15 - i % 16)

/-- entries 800-1279 of the sector map, never set: utils.py:302, dos33.py:99 -/
def restMap33 : List Bool := List.replicate 480 false

/-- `Dos33VTOC.parse_segments`, dos33.py:64-100, on the 256 bytes of the VTOC sector: first two bytes of every group of
four from 0x38 on, bits most significant first, groups of sixteen reversed; 800 of the 1280 entries are set -/
def vtocMap33 (v : Bytes) : List Bool :=
  let bits := unpackbits ((chunks 4 (v.drop 0x38)).flatMap (·.take 2))
  (List.range 800).map (fun i => bits.getD (reorder33 i) false) ++ restMap33

/-- new contents of the VTOC sector in `calc_bitmap`, dos33.py:108-114 -/
def vtocStore33 (v : Bytes) (map : List Bool) : Bytes :=
  let packed := packbits ((List.range 800).map fun i => map.getD (reorder33 i) false)
  v.take 0x38 ++ (List.zipWith (fun row p => p ++ row.drop 2) (chunks 4 (v.drop 0x38)) (chunks 2 packed)).flatten

/-- `get_vtoc_object`, diskimages.py:332-335, `get_vtoc_segments`, dos33.py:503-531: the sector map.  Position of the
VTOC is sector 272; its bytes are a view of the image. -/
def DImg.getVtocMap (m : DImg) : Except Err (List Bool) :=
  match getSec33 m.maxSectors m.bytes 272 with
  | .error e => .error e
  | .ok d => .ok (vtocMap33 d)

/-- `Dos33VTOC.calc_bitmap`, dos33.py:102-118: stores through the view into the image and returns the queued copy of
sector 272 -/
def DImg.calcBitmap (map : List Bool) : Proc DImg WSector := fun m =>
  let v := vtocStore33 (sec33 m.bytes 272) map
  let m := { m with bytes := splice m.bytes (256 * 272) v }
  (.ok { WSector.ofData 256 v with num := 272 }, m)

/-! ### writing -/

/-- `write_sector_list`, diskimages.py:373-377 -/
def DImg.writeSectors : List WSector → Proc DImg Unit
  | [], m => (.ok (), m)
  | s :: ss, m =>
    if ¬ s.num < m.maxSectors then (.error .nameError, m)
    else
      match assignSlice m.bytes (256 * s.num) (256 * s.num + 256) s.data with
      | .error e => (.error e, m)
      | .ok b => DImg.writeSectors ss { m with bytes := b }

/-- `build_sectors`, diskimages.py:362-371 -/
def buildSectors33 (data : Bytes) : List WSector := (chunks 256 data).map (WSector.ofData 256)

/-- track and sector bytes of a sector number: `track_from_sector`, diskimages.py:79-81, stored into `uint8` -/
def tsBytes (n : Nat) : Bytes := [UInt8.ofNat (n / 16), UInt8.ofNat (n % 16)]

/-- `Dos33TSSector.next_sector_num` setter, dos33.py:51-56, and the catalog link, dos33.py:145-147 -/
def WSector.setNext33 (s : WSector) (next : Nat) : WSector := { s with data := splice s.data 1 (tsBytes next) }

/-- `next_sector_num` setter of `WriteableSector`, utils.py:90-92: no effect on the data -/
def WSector.setNextPlain (s : WSector) (_next : Nat) : WSector := s

/-- `Dos33TSSector(header, sector_list, start, end)`, dos33.py:18-33: more than 122 pairs do not fit (`IndexError`) -/
def tsSector (nums : List Nat) : Except Err WSector :=
  if 122 < nums.length then .error .indexError
  else .ok { WSector.blank 256 with data := splice (List.replicate 256 0) 12 (nums.flatMap tsBytes), used := 256 }

def tsSectors : List (List Nat) → Except Err (List WSector)
  | [] => .ok []
  | c :: cs =>
    match tsSector c with
    | .error e => .error e
    | .ok s =>
      match tsSectors cs with
      | .error e => .error e
      | .ok ss => .ok (s :: ss)

/-- loop of `add_metadata_sectors`, dos33.py:272-277: T/S sectors of `pairs` entries each.  `range` with step 0 raises
`ValueError`. -/
def buildTsList (pairs : Nat) (nums : List Nat) : Except Err (List WSector) :=
  if pairs = 0 then .error .valueError else tsSectors (chunks pairs nums)

/-- `Dos33Directory.get_dirent_sector`, dos33.py:126-130 -/
def freshCatSec : WSector := ((WSector.blank 256).addData (List.replicate 11 0)).1

def encodeAll33 : List DDirent → Except Err (List Bytes)
  | [] => .ok []
  | d :: ds =>
    match d.encode with
    | .error e => .error e
    | .ok x =>
      match encodeAll33 ds with
      | .error e => .error e
      | .ok xs => .ok (x :: xs)

/-- `set_sector_numbers`, dos33.py:140-149, with `get_directory_sector_links`, dos33.py:564-573: follows the links in the
image; a zero link raises `NoSpaceInDirectory` -/
def numberCatSecs (maxS : Nat) (b : Bytes) : Nat → List WSector → Except Err (List WSector)
  | _, [] => .ok []
  | cur, w :: ws =>
    if ¬ cur < maxS then .error .byteNotInFile
    else
      let d := sec33 b cur
      if d.length ≠ 256 then .error .indexError
      else if linkOf d = 0 then .error .noSpaceInDirectory
      else
        match numberCatSecs maxS b (linkOf d) ws with
        | .error e => .error e
        | .ok ws' => .ok (WSector.setNext33 { w with num := cur } (linkOf d) :: ws')

/-- `Directory.calc_sectors`, utils.py:249-291 -/
def DImg.calcCatSectors (m : DImg) (ds : List DDirent) : Except Err (List WSector) :=
  match encodeAll33 ds with
  | .error e => .error e
  | .ok enc => numberCatSecs m.maxSectors m.bytes m.firstDir (calcSectors freshCatSec enc)

/-- `Directory.get_free_dirent`, utils.py:198-213, without a maximum number of entries -/
def getFreeDirent33 (ds : List DDirent) : Nat :=
  match ds.findIdx? (·.deleted) with
  | some i => i
  | none => ds.length

/-- `Directory.set`, utils.py:194-195, at an index up to the length -/
def setDirent33 (ds : List DDirent) (i : Nat) (d : DDirent) : List DDirent :=
  if i < ds.length then ds.set i d else ds ++ [d]

/-- `Directory.find_dirent`, utils.py:222-232: the first entry of that name, deleted entries included -/
def findDirentIdx33 (ds : List DDirent) (name : Bytes) : Except Err (Nat × DDirent) :=
  match ds.findIdx? (fun d => d.filename == name) with
  | some i => .ok (i, ds.getD i {})
  | none => .error .fileNotFound

/-- body of the `try` in `write_file`, diskimages.py:346-355, with `save_dirent` (utils.py:234-238),
`assign_sector_numbers` (utils.py:322-343), `add_metadata_sectors` (dos33.py:268-282), `update_sector_info`
(dos33.py:264-266).  A new `Dirent` has `file_num` 0. -/
def DImg.writeBody (name : Bytes) (ftype : Nat) (data : Bytes) : Proc DImg Unit := fun m =>
  match DImg.getDirectory m with
  | (.error e, m) => (.error e, m)
  | (.ok ds, m) =>
    let index := getFreeDirent33 ds
    let dirent := DDirent.setValues name ftype
    let sl := buildSectors33 data
    match m.getVtocMap with
    | .error e => (.error e, m)
    | .ok map =>
      match reserve sl.length map with
      | .error e => (.error e, m)
      | .ok (order, map) =>
        match DImg.calcBitmap map m with
        | (.error e, m) => (.error e, m)
        | (.ok v1, m) =>
          let sl := linkSectors WSector.setNextPlain 0 sl order
          match buildTsList m.tsPairs (sl.map (·.num)) with
          | .error e => (.error e, m)
          | .ok tl =>
            match reserve tl.length map with
            | .error e => (.error e, m)
            | .ok (tsOrder, map) =>
              match DImg.calcBitmap map m with
              | (.error e, m) => (.error e, m)
              | (.ok v2, m) =>
                match linkSectors WSector.setNext33 0 tl tsOrder with
                | [] => (.error .indexError, m)
                | t0 :: ts =>
                  let tl := t0 :: ts
                  let dirent := { dirent with
                    track := UInt8.ofNat (t0.num / 16)
                    sector := UInt8.ofNat (t0.num % 16)
                    numSectors := (sl ++ tl).length }
                  match m.calcCatSectors (setDirent33 ds index dirent) with
                  | .error e => (.error e, m)
                  | .ok cat =>
                    match DImg.writeSectors (sl ++ tl) m with
                    | (.error e, m) => (.error e, m)
                    | (.ok _, m) =>
                      match DImg.writeSectors [v1, v2] m with
                      | (.error e, m) => (.error e, m)
                      | (.ok _, m) => DImg.writeSectors cat m

/-- `begin_transaction` and `rollback_transaction`, diskimages.py:324-330: the saved state is a view of the bytes -/
def DImg.rollback (m : DImg) (v : View) : DImg := { m with bytes := splice m.bytes 0 (v.read m.bytes) }

/-- `try … except AtrError: rollback; raise … finally: get_metadata()`, diskimages.py:344-360, 380-394, 397-407 -/
def DImg.transaction (body : Proc DImg Unit) : Proc DImg Unit := fun m =>
  let state : View := ⟨0, m.bytes.length⟩
  match body m with
  | (.ok _, m) => DImg.getMetadata m
  | (.error e, m) =>
    let m := if e.isAtr then m.rollback state else m
    match DImg.getMetadata m with
    | (.ok _, m) => (.error e, m)
    | (.error e', m) => (.error e', m)

/-- `write_file`, diskimages.py:337-360 -/
def DImg.writeFile (name : Bytes) (ftype : Nat) (data : Bytes) : Proc DImg Unit :=
  DImg.transaction (DImg.writeBody name ftype data)

/-- body of the `try` in `delete_file`, diskimages.py:382-389 -/
def DImg.deleteBody (name : Bytes) : Proc DImg Unit := fun m =>
  match DImg.getDirectory m with
  | (.error e, m) => (.error e, m)
  | (.ok ds, m) =>
    match findDirentIdx33 ds name with
    | .error e => (.error e, m)
    | .ok (i, d) =>
      match d.sectorsInVtoc m.maxSectors m.bytes with
      | .error e => (.error e, m)
      | .ok secs =>
        match m.getVtocMap with
        | .error e => (.error e, m)
        | .ok map =>
          match freeSectors secs map with
          | .error e => (.error e, m)
          | .ok map =>
            match DImg.calcBitmap map m with
            | (.error e, m) => (.error e, m)
            | (.ok v, m) =>
              match m.calcCatSectors (ds.set i d.markDeleted) with
              | .error e => (.error e, m)
              | .ok cat =>
                match DImg.writeSectors [v] m with
                | (.error e, m) => (.error e, m)
                | (.ok _, m) => DImg.writeSectors cat m

/-- `delete_file`, diskimages.py:379-394 -/
def DImg.deleteFile (name : Bytes) : Proc DImg Unit := DImg.transaction (DImg.deleteBody name)

/-- loop of `shred`, diskimages.py:400-402, over `iter_free_sectors`, utils.py:314-317 -/
def DImg.shredLoop (fill : UInt8) (map : List Bool) : List Nat → Proc DImg Unit
  | [], m => (.ok (), m)
  | i :: is, m =>
    match map[i]? with
    | none => (.error .indexError, m)
    | some true => DImg.shredLoop fill map is { m with bytes := fillSlice m.bytes (256 * i) (256 * i + 256) fill }
    | some false => DImg.shredLoop fill map is m

/-- body of `shred`, diskimages.py:399-402 -/
def DImg.shredBody (fill : Nat) : Proc DImg Unit := fun m =>
  match m.getVtocMap with
  | .error e => (.error e, m)
  | .ok map => DImg.shredLoop (UInt8.ofNat fill) map (List.range m.maxSectors) m

/-- `shred`, diskimages.py:396-407 -/
def DImg.shred (fill : Nat) : Proc DImg Unit := DImg.transaction (DImg.shredBody fill)

/-- DOS 3.3 images as seen by the command line; `t` is the argument of `--filetype` (`B` if not given,
`__init__.py:149-151`, dos33.py:389).  As for `atariDriver` the parser selection is left out. -/
def dos33Driver (t : Char) : Driver DImg where
  load := DImg.open
  bytes := DImg.bytes
  find := fun m name => (m.findDirent name).map fun _ => ()
  delete := DImg.deleteFile
  write := fun name data => DImg.writeFile name (textToType33 t) data
  shred := DImg.shred 0

end Atr
