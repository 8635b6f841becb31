import Verif.Model.AtariDos
/-!
# SpartaDOS images (read only): `/repo/atrcopy/spartados.py`
-/
namespace Atr

/-- `b.view(dtype='<u2')` of an array of even length -/
def wordsOf : Bytes → List Nat
  | a :: b :: t => le16 a b :: wordsOf t
  | _ => []

/-- loop of `get_sector_map`, spartados.py:210-219: the words after the first four bytes of every map sector, linked by the
first word.  Sectors shorter than four bytes or of odd length raise `ValueError`.  Fuel: see `spartaMap`. -/
def mapLoop (h : AHeader) (b : Bytes) : Nat → Nat → Except Err (List Nat)
  | 0, _ => .error .hang
  | fuel + 1, s =>
    if s = 0 then .ok []
    else
      match h.getSectors b s s with
      | .error e => .error e
      | .ok d =>
        match d with
        | n0 :: n1 :: _ :: _ :: rest =>
          if rest.length % 2 = 1 then .error .valueError
          else
            match mapLoop h b fuel (le16 n0 n1) with
            | .error e => .error e
            | .ok m => .ok (wordsOf rest ++ m)
        | _ => .error .valueError

/-- `get_sector_map`, spartados.py:210-219.  It returns `None` for sector 0, and every use then subscripts the result, which
raises `TypeError`.  With fuel `max_sectors + 2` only endless loops run out of it (`C57_map_hang_iff`). -/
def spartaMap (h : AHeader) (b : Bytes) (s : Nat) : Except Err (List Nat) :=
  if s = 0 then .error .typeError else mapLoop h b (h.maxSectors + 2) s

/-- `SpartaDosDirent`, spartados.py:11-32.  `stamp` are the bytes of `date_array` and `time_array`. -/
structure SDirent where
  fileNum : Nat := 0
  flag : UInt8 := 0
  locked : Bool := false
  inUse : Bool := false
  deleted : Bool := false
  isDir : Bool := false
  openedOutput : Bool := false
  startingSector : Nat := 0
  basename : Bytes := []
  ext : Bytes := []
  length : Int := 0
  stamp : Bytes := []
  isSane : Bool := true
deriving DecidableEq, Repr

/-- a signed byte (`i1`) -/
def int8 (b : UInt8) : Int := if b.toNat < 128 then b.toNat else (b.toNat : Int) - 256

/-- `SpartaDosDirent.sanity_check`, spartados.py:77-82 -/
def SDirent.sanityCheck (h : AHeader) (d : SDirent) : Bool :=
  if !d.inUse then true else h.sectorIsValid d.startingSector

/-- `SpartaDosDirent.parse_raw_dirent`, spartados.py:53-75: a view of an empty array is empty (`IndexError`), one of a wrong
length raises `ValueError`.  The high byte of the length is signed. -/
def SDirent.parse (h : AHeader) (num : Nat) (b : Bytes) : Except Err SDirent :=
  match b with
  | [] => .error .indexError
  | [flag, s0, s1, l0, l1, l2, n0, n1, n2, n3, n4, n5, n6, n7, e0, e1, e2, d0, d1, d2, t0, t1, t2] =>
    let isDir := flag.toNat.testBit 5
    let d : SDirent :=
      { fileNum := num
        flag := flag
        locked := flag.toNat.testBit 0
        inUse := flag.toNat.testBit 3
        deleted := flag.toNat.testBit 4
        isDir := isDir
        openedOutput := flag.toNat.testBit 7
        startingSector := le16 s0 s1
        basename := rstripWs (rstripNul [n0, n1, n2, n3, n4, n5, n6, n7])
        ext := if isDir then [] else rstripWs (rstripNul [e0, e1, e2])
        length := 256 * 256 * int8 l2 + le16 l0 l1
        stamp := [d0, d1, d2, t0, t1, t2] }
    .ok { d with isSane := d.sanityCheck h }
  | _ => .error .valueError

/-- `filename`, ataridos.py:107-109 (inherited) -/
def SDirent.filename (d : SDirent) : Bytes :=
  d.basename ++ (if d.ext = [] then [] else 0x2e :: d.ext)

/-- loop of `get_file_segment` over `read_sector`, spartados.py:98-106, 229-238: position and number of bytes of every sector.
A zero in the map ends the file; running off the end of the map raises `IndexError`. -/
def spartaRead (h : AHeader) (b : Bytes) : List Nat → Int → Except Err (List (Nat × Int))
  | [], _ => .error .indexError
  | s :: map, remaining =>
    if s = 0 then .ok []
    else
      match h.getRawBytes b s with
      | .error e => .error e
      | .ok (_, pos, size) =>
        let n := min remaining size
        match spartaRead h b map (remaining - n) with
        | .error e => .error e
        | .ok rest => .ok ((pos, n) :: rest)

/-- indexes `range(pos, pos + n)` of every sector, spartados.py:235 (empty for `n ≤ 0`) -/
def spartaOrder (l : List (Nat × Int)) : List Nat := l.flatMap fun x => List.range' x.1 x.2.toNat

/-- `get_file`: `start_read` (spartados.py:90-96), the read loop and the segment made from it (spartados.py:239-245).  As for
Atari DOS, a file without bytes becomes an `EmptySegment` whose `tobytes()` is the whole image. -/
def SDirent.getFile (d : SDirent) (h : AHeader) (b : Bytes) : Except Err Bytes :=
  if !d.isSane then .error .invalidDirent
  else
    match spartaMap h b d.startingSector with
    | .error e => .error e
    | .ok map =>
      match spartaRead h b map d.length with
      | .error e => .error e
      | .ok l => if spartaOrder l = [] then .ok b else gather b (spartaOrder l)

/-- `SpartaDosDiskImage`, spartados.py:109-117 -/
structure SImg where
  hdr : AHeader
  bytes : Bytes
  rootDir : Nat := 0
  files : List SDirent := []
deriving DecidableEq, Repr

/-- `get_boot_sector_info`, spartados.py:146-162: the root directory sector.  Fields of the boot record at their offsets:
root_dir 9, num_sectors 11, bitmap 16, first_free 18, sector_size 31, fs_version 32. -/
def spartaBoot (h : AHeader) (b : Bytes) : Except Err Nat :=
  match h.getSectors b 1 1 with
  | .error e => .error e
  | .ok d =>
    if d.length < 33 then .error .valueError
    else
      let u16 i := le16 (d.getD i 0) (d.getD (i + 1) 0)
      if u16 11 = h.maxSectors ∧ u16 18 ≤ h.maxSectors ∧ u16 16 ≤ h.maxSectors ∧ u16 9 ≤ h.maxSectors
          ∧ (d.getD 32 0 = 0x11 ∨ d.getD 32 0 = 0x20 ∨ d.getD 32 0 = 0x21)
          ∧ (d.getD 31 0 = 0 ∨ d.getD 31 0 = 1 ∨ d.getD 31 0 = 0x80)
      then .ok (u16 9) else .error .invalidDiskImage

/-- the entries of a directory file, spartados.py:176-178: one for every `i` in `range(23, length, 23)` -/
def spartaEntries (h : AHeader) (s : Bytes) (num : Nat) : Nat → Except Err (List SDirent)
  | 0 => .ok []
  | k + 1 =>
    match SDirent.parse h (num + 1) (slice s (23 * (num + 1)) (23 * (num + 1) + 23)) with
    | .error e => .error e
    | .ok d =>
      match spartaEntries h s (num + 1) k with
      | .error e => .error e
      | .ok ds => .ok (d :: ds)

/-- `get_directory`, spartados.py:167-179: the first entry of the root directory file describes that file itself -/
def spartaDirectory (h : AHeader) (b : Bytes) (rootDir : Nat) : Except Err (List SDirent) :=
  match spartaMap h b rootDir with
  | .error e => .error e
  | .ok [] => .error .indexError
  | .ok (sector :: _) =>
    if sector = 0 then .ok []
    else
      match h.getRawBytes b sector with
      | .error e => .error e
      | .ok (raw, _, _) =>
        match SDirent.parse h 0 (slice raw 0 23) with
        | .error e => .error e
        | .ok d =>
          let d := { d with startingSector := rootDir }
          let d := { d with isSane := d.sanityCheck h }
          match d.getFile h b with
          | .error e => .error e
          | .ok s => spartaEntries h s 0 ((d.length.toNat + 22) / 23 - 1)

/-- `SpartaDosDiskImage(rawdata)`: `setup` and `get_metadata`, diskimages.py:154-165.  `all_sane` stays true, so insane
entries are accepted. -/
def SImg.open (b : Bytes) : Except Err SImg :=
  match openHeader b with
  | .error e => .error e
  | .ok h =>
    match spartaBoot h b with
    | .error e => .error e
    | .ok root =>
      match spartaDirectory h b root with
      | .error e => .error e
      | .ok ds => .ok { hdr := h, bytes := b, rootDir := root, files := ds }

/-- `find_dirent` / `find_file`, diskimages.py:281-292 -/
def SImg.findFile (m : SImg) (name : Bytes) : Except Err Bytes :=
  match m.files.find? (fun d => d.filename == name) with
  | none => .error .fileNotFound
  | some d => d.getFile m.hdr m.bytes

end Atr
