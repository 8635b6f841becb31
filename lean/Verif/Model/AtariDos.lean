import Verif.Model.AtariHeader
/-!
# Atari DOS 2 / 2.5 / MyDOS images: `/repo/atrcopy/ataridos.py`, `/repo/atrcopy/diskimages.py`
-/
namespace Atr

/-- `AtariDosWriteableSector.next_sector_num` setter, ataridos.py:22-29.  For sectors of at least 3 bytes (smaller
ones would use negative indexes; payload would then be non-positive and no sector is ever built). -/
def WSector.setNextAtari (s : WSector) (next : Nat) : WSector :=
  let index := s.size - 3
  let hi := next / 256
  let lo := next % 256
  { s with data := ((s.data.set index (UInt8.ofNat (s.fileNum <<< 2 ||| (hi &&& 3)))).set (index + 1)
                      (UInt8.ofNat lo)).set (index + 2) (UInt8.ofNat s.used) }

/-- `AtariDosDirent` / `MydosDirent`, ataridos.py:70-98.  `mydos` decides the class (ataridos.py:558-560).
`startingSector` is an integer because an empty file gets `-1` (utils.py:137). -/
structure ADirent where
  fileNum : Nat := 0
  flag : UInt8 := 0
  openedOutput : Bool := false
  dos2 : Bool := false
  mydos : Bool := false
  isDir : Bool := false
  locked : Bool := false
  inUse : Bool := false
  deleted : Bool := false
  numSectors : Nat := 0
  startingSector : Int := 0
  basename : Bytes := []
  ext : Bytes := []
  isSane : Bool := true
deriving DecidableEq, Repr

/-- `AtariDosDirent.filename`, ataridos.py:107-109 -/
def ADirent.filename (d : ADirent) : Bytes :=
  d.basename ++ (if d.ext = [] then [] else 0x2e :: d.ext)

/-- `AtariDosDirent.sanity_check`, ataridos.py:179-186 -/
def ADirent.sanityCheck (h : AHeader) (d : ADirent) : Bool :=
  if !d.inUse then true
  else if !(0 ≤ d.startingSector && h.sectorIsValid d.startingSector.toNat) then false
  else if d.numSectors > h.maxSectors then false
  else true

/-- `AtariDosDirent.parse_raw_dirent`, ataridos.py:136-153.  A view of fewer than 16 bytes raises `ValueError`. -/
def ADirent.parse (h : AHeader) (fileNum : Nat) (b : Bytes) : Except Err ADirent :=
  match b with
  | [flag, c0, c1, s0, s1, n0, n1, n2, n3, n4, n5, n6, n7, e0, e1, e2] =>
    let d : ADirent :=
      { fileNum := fileNum
        flag := flag
        openedOutput := flag.toNat.testBit 0
        dos2 := flag.toNat.testBit 1
        mydos := flag.toNat.testBit 2
        isDir := flag.toNat.testBit 4
        locked := flag.toNat.testBit 5
        inUse := flag.toNat.testBit 6
        deleted := flag.toNat.testBit 7
        numSectors := le16 c0 c1
        startingSector := le16 s0 s1
        basename := rstripWs (rstripNul [n0, n1, n2, n3, n4, n5, n6, n7])
        ext := rstripWs (rstripNul [e0, e1, e2]) }
    .ok { d with isSane := d.sanityCheck h }
  | _ => .error .valueError

/-- flag byte of `AtariDosDirent.encode_dirent`, ataridos.py:158 -/
def ADirent.encodeFlag (d : ADirent) : Nat :=
  d.openedOutput.toNat ||| (2 * d.dos2.toNat) ||| (4 * d.mydos.toNat) ||| (0x10 * d.isDir.toNat)
    ||| (0x20 * d.locked.toNat) ||| (0x40 * d.inUse.toNat) ||| (0x80 * d.deleted.toNat)

/-- `AtariDosDirent.encode_dirent`, ataridos.py:155-164 -/
def ADirent.encode (d : ADirent) : Bytes :=
  [UInt8.ofNat d.encodeFlag] ++ enc16 d.numSectors ++ enc16 (d.startingSector % 65536).toNat
    ++ encS 8 d.basename ++ encS 3 d.ext

/-- `AtariDosDirent.mark_deleted`, ataridos.py:166-168 -/
def ADirent.markDeleted (d : ADirent) : ADirent := { d with deleted := true, inUse := false }

/-- `AtariDosDirent.set_values`, ataridos.py:223-235: split at the first dot. -/
def ADirent.setValues (filename : Bytes) (index : Nat) : ADirent :=
  let (base, ext) :=
    if filename.contains 0x2e then
      (filename.takeWhile (· != 0x2e), (filename.dropWhile (· != 0x2e)).drop 1)
    else (filename, [32, 32, 32])
  { fileNum := index, dos2 := true, inUse := true, basename := padRight 8 (base.take 8), ext := ext }

/-- `Directory.get_free_dirent`, utils.py:198-213.  `num_dirents` is `-1` for Atari DOS directories
(`directory_class(self.header)`, diskimages.py:346), so `NoSpaceInDirectory` is never raised. -/
def getFreeDirent (ds : List ADirent) : Nat :=
  match ds.findIdx? (fun d => !d.inUse) with
  | some i => i
  | none => ds.length

/-- `Directory.set`, utils.py:194-195 (index at most the length) -/
def setDirent (ds : List ADirent) (i : Nat) (d : ADirent) : List ADirent :=
  if i < ds.length then ds.set i d else ds ++ [d]

/-- State of a sector-chain read: `current_sector` and `sectors_seen`, ataridos.py:199-204 -/
structure ReadSt where
  cur : Nat
  seen : List Nat
deriving DecidableEq, Repr

/-- `process_raw_sector`, ataridos.py:211-221 and 239-244 (MyDOS): new state and number of data bytes.
`raw[-3]` raises `IndexError` when the sector is shorter than three bytes. -/
def ADirent.processRaw (d : ADirent) (st : ReadSt) (raw : Bytes) : Except Err (ReadSt × Nat) :=
  if raw.length < 3 then .error .indexError
  else
    let r3 := (raw.getD (raw.length - 3) 0).toNat
    let r2 := (raw.getD (raw.length - 2) 0).toNat
    let r1 := (raw.getD (raw.length - 1) 0).toNat
    if d.mydos then .ok ({ st with cur := r3 * 256 + r2 }, r1)
    else if r3 / 4 ≠ d.fileNum then .error .fileNumberMismatch
    else
      let seen := st.cur :: st.seen
      let next := (r3 % 4) * 256 + r2
      if seen.contains next then .error .invalidFile
      else .ok ({ cur := next, seen := seen }, r1)

/-- `read_sector`, ataridos.py:206-209: new state, last?, position, number of data bytes -/
def ADirent.readSector (d : ADirent) (h : AHeader) (b : Bytes) (st : ReadSt) :
    Except Err (ReadSt × Bool × Nat × Nat) :=
  match h.getRawBytes b st.cur with
  | .error e => .error e
  | .ok (raw, pos, _) =>
    match d.processRaw st raw with
    | .error e => .error e
    | .ok (st', n) => .ok (st', st'.cur == 0, pos, n)

/-- The common loop of `get_sectors_in_vtoc` (ataridos.py:191-196) and `get_file_segment` (ataridos.py:655-659):
the list of (sector number, position, number of data bytes).  The loop ends when the next sector is 0.  Fuel: see
`readChain`. -/
def ADirent.readLoop (d : ADirent) (h : AHeader) (b : Bytes) : Nat → ReadSt → Except Err (List (Nat × Nat × Nat))
  | 0, _ => .error .hang
  | fuel + 1, st =>
    match d.readSector h b st with
    | .error e => .error e
    | .ok (st', last, pos, n) =>
      if last then .ok [(st.cur, pos, n)]
      else
        match d.readLoop h b fuel st' with
        | .error e => .error e
        | .ok rest => .ok ((st.cur, pos, n) :: rest)

/-- `start_read` (ataridos.py:199-204) followed by the read loop.  Fuel `max_sectors + 1`: a longer run would read
a sector twice, which for MyDOS entries means an endless loop and for Atari DOS entries is impossible; see
`Props/AtariRead.lean`. -/
def ADirent.readChain (d : ADirent) (h : AHeader) (b : Bytes) : Except Err (List (Nat × Nat × Nat)) :=
  if !d.isSane then .error .invalidDirent
  else if d.startingSector < 0 then .error .byteNotInFile
  else d.readLoop h b (h.maxSectors + 1) { cur := d.startingSector.toNat, seen := [] }

/-- `[pos, …, pos+n-1]` for every sector read, ataridos.py:657 -/
def byteOrder (l : List (Nat × Nat × Nat)) : List Nat :=
  l.flatMap fun x => List.range' x.2.1 x.2.2

/-- Reading the bytes selected by a list of indexes (`get_indexed(order)` then `tobytes()`): `IndexError` when an
index is out of range. -/
def gather (b : Bytes) (order : List Nat) : Except Err Bytes :=
  if order.all (· < b.length) then .ok (order.map fun i => b.getD i 0) else .error .indexError

/-- `get_file` = `get_file_segment(dirent).tobytes()`, ataridos.py:652-667, diskimages.py:294-296.  When no sector
contributes a byte the result is `EmptySegment(self.rawdata)` whose `tobytes()` is the *whole image*
(segments.py: `EmptySegment` keeps the raw data it is given; `tobytes` returns all of it). -/
def ADirent.getFile (d : ADirent) (h : AHeader) (b : Bytes) : Except Err Bytes :=
  match d.readChain h b with
  | .error e => .error e
  | .ok l => if byteOrder l = [] then .ok b else gather b (byteOrder l)

/-- `AtariDosDiskImage`: ataridos.py:455-463, diskimages.py:103-119.  Styles and comments are not modelled. -/
structure AImg where
  hdr : AHeader
  bytes : Bytes
  firstVtoc : Nat := 360
  numVtoc : Int := 1
  vtoc2 : Nat := 0
  total : Nat := 0
  unused : Nat := 0
  files : List ADirent := []
  allSane : Bool := true
deriving DecidableEq, Repr

/-- `calc_vtoc_code`, ataridos.py:512-527 -/
def AImg.calcVtocCode (m : AImg) : Nat :=
  let num := 1 + (m.total + 80) / (m.hdr.sectorSize * 8)
  if m.hdr.sectorSize = 128 then
    if num = 1 then 2
    else
      let num := if num % 2 = 1 then num + 1 else num
      (num + 1) / 2 + 2
  else if m.total < 1024 then 2
  else 2 + num

/-- `get_vtoc`, ataridos.py:529-550 -/
def AImg.getVtoc : Proc AImg Unit := fun m =>
  match m.hdr.getSectors m.bytes 360 360 with
  | .error e => (.error e, m)
  | .ok data =>
    match slice data 0 5 with
    | [code, t0, t1, u0, u1] =>
      let num : Int := if code.toNat = 0 ∨ code.toNat = 2 then 1 else (code.toNat : Int) * 2 - 3
      let first := 360 - num + 1
      let m := { m with firstVtoc := first.toNat }
      if first < 0 ∨ !m.hdr.sectorIsValid first.toNat then (.error .byteNotInFile, m)
      else
        let m := { m with numVtoc := num }
        if num < 0 ∨ num > m.calcVtocCode then (.error .invalidDiskImage, m)
        else
          let m := { m with total := le16 t0 t1, unused := le16 u0 u1 }
          if m.hdr.imageSize = 133120 then
            let m := { m with vtoc2 := 1024 }
            match m.hdr.getSectors m.bytes 1024 1024 with
            | .error e => (.error e, m)
            | .ok data =>
              match slice data 122 124 with
              | [x0, x1] => (.ok (), { m with unused := (m.unused + le16 x0 x1) % 65536 })
              | [] => (.error .indexError, m)
              | _ => (.error .valueError, m)
          else (.ok (), m)
    | _ => (.error .valueError, m)

/-- scan of `get_directory`, ataridos.py:557-572: all entries before the first one that is not in use and has
flag 0, numbered consecutively -/
def scanDir (h : AHeader) : Nat → List Bytes → Except Err (List ADirent)
  | _, [] => .ok []
  | num, c :: cs =>
    match ADirent.parse h num c with
    | .error e => .error e
    | .ok d =>
      if !d.inUse && d.flag == 0 then .ok []
      else
        match scanDir h (num + 1) cs with
        | .error e => .error e
        | .ok ds => .ok (d :: ds)

/-- `get_directory`, ataridos.py:552-573: sets `files` and `all_sane`, returns the `Directory` contents.  (When the
scan raises, `all_sane` is left alone here; a raising scan needs an odd sector size.) -/
def AImg.getDirectory : Proc AImg (List ADirent) := fun m =>
  match m.hdr.getSectors m.bytes 361 368 with
  | .error e => (.error e, m)
  | .ok dir =>
    match scanDir m.hdr 0 (chunks 16 dir) with
    | .error e => (.error e, m)
    | .ok ds =>
      let files := ds.filter (·.inUse)
      (.ok ds, { m with files := files, allSane := m.allSane && files.all (·.isSane) })

/-- `get_metadata`, diskimages.py:161-165 and `check_sane` 201-203 -/
def AImg.getMetadata : Proc AImg Unit := fun m =>
  match AImg.getVtoc m with
  | (.error e, m) => (.error e, m)
  | (.ok _, m) =>
    match AImg.getDirectory m with
    | (.error e, m) => (.error e, m)
    | (.ok _, m) => if m.allSane then (.ok (), m) else (.error .invalidDiskImage, m)

/-- `AtariDosDiskImage(rawdata)`: `__init__` and `setup`, diskimages.py:103-119, 154-159 -/
def AImg.open (b : Bytes) : Except Err AImg :=
  match openHeader b with
  | .error e => .error e
  | .ok h =>
    match AImg.getMetadata { hdr := h, bytes := b } with
    | (.error e, _) => .error e
    | (.ok _, m) => .ok m

/-- `find_dirent`, diskimages.py:281-288 -/
def AImg.findDirent (m : AImg) (name : Bytes) : Except Err ADirent :=
  match m.files.find? (fun d => d.filename == name) with
  | some d => .ok d
  | none => .error .fileNotFound

/-- `find_file`, diskimages.py:290-292 -/
def AImg.findFile (m : AImg) (name : Bytes) : Except Err Bytes :=
  match m.findDirent name with
  | .error e => .error e
  | .ok d => d.getFile m.hdr m.bytes

/-- A NumPy view of part of the image bytes: offset and length. -/
structure View where
  off : Nat
  len : Nat
deriving DecidableEq, Repr

/-- current contents of a view -/
def View.read (v : View) (b : Bytes) : Bytes := slice b v.off (v.off + v.len)

/-- `begin_transaction`, diskimages.py:324-326: `self.bytes[:]` is a *view*, not a copy. -/
def AImg.beginTransaction (m : AImg) : View := ⟨0, m.bytes.length⟩

/-- `rollback_transaction`, diskimages.py:328-330: assigns the current contents of the view. -/
def AImg.rollback (m : AImg) (v : View) : AImg := { m with bytes := splice m.bytes 0 (v.read m.bytes) }

/-- loop of `build_sectors`, diskimages.py:362-371, for a positive payload size -/
def buildSectors (h : AHeader) (data : Bytes) : Except Err (List WSector) :=
  if data = [] then .ok []
  else if h.payloadBytes ≤ 0 then .error .hang
  else .ok ((chunks h.payloadBytes.toNat data).map (WSector.ofData h.sectorSize))

/-- `write_sector_list`, diskimages.py:373-377 -/
def AImg.writeSectors : List WSector → Proc AImg Unit
  | [], m => (.ok (), m)
  | s :: ss, m =>
    match m.hdr.getPos s.num with
    | .error e => (.error e, m)
    | .ok (pos, size) =>
      match assignSlice m.bytes pos (pos + size) s.data with
      | .error e => (.error e, m)
      | .ok b => AImg.writeSectors ss { m with bytes := b }

/-- `AtariDosVTOC`: position and length of `vtoc1` in the image (a view), the sector map and the VTOC sectors to
be written.  utils.py:297-304, ataridos.py:34-47 -/
structure AVtoc where
  view : View
  map : List Bool
  sectors : List WSector := []
deriving DecidableEq, Repr

/-- `get_vtoc_object`, diskimages.py:332-335; `get_vtoc_segments`, ataridos.py:608-632; `parse_segments`,
ataridos.py:35-38: bits of bytes 0x0a-0x63 are sectors 0-719; the map has 1280 entries. -/
def AImg.getVtocObject (m : AImg) : Except Err AVtoc :=
  match m.hdr.getContiguous m.firstVtoc m.numVtoc.toNat with
  | .error e => .error e
  | .ok (start, count) =>
    match (if m.vtoc2 > 0 then m.hdr.getContiguous m.vtoc2 1 else .ok (0, 0)) with
    | .error e => .error e
    | .ok _ =>
      let v : View := ⟨start, count⟩
      let bits := unpackbits (slice (v.read m.bytes) 0x0a 0x64)
      if bits.length = 720 then .ok { view := v, map := bits ++ List.replicate 560 false }
      else .error .valueError

/-- `AtariDosVTOC.calc_bitmap`, ataridos.py:41-47: the bitmap is stored through the view, i.e. directly in the image
bytes, and a copy of the VTOC sector is queued for sector 360. -/
def AImg.calcBitmap (vt : AVtoc) : Proc AImg AVtoc := fun m =>
  let packed := packbits (vt.map.take 720)
  match assignSlice (vt.view.read m.bytes) 0x0a 0x64 packed with
  | .error e => (.error e, m)
  | .ok v1 =>
    let m := { m with bytes := splice m.bytes vt.view.off v1 }
    let s := { WSector.ofData m.hdr.sectorSize (vt.view.read m.bytes) with num := 360 }
    (.ok { vt with sectors := vt.sectors ++ [s] }, m)

/-- `AtariDosDirectory.set_sector_numbers`, ataridos.py:63-67 -/
def numberDirSectors : Nat → List WSector → List WSector
  | _, [] => []
  | n, s :: ss => { s with num := n } :: numberDirSectors (n + 1) ss

/-- `Directory.calc_sectors` for Atari DOS: utils.py:249-291, ataridos.py:50-67 -/
def calcDirSectors (h : AHeader) (ds : List ADirent) : List WSector :=
  numberDirSectors 361 (calcSectors (WSector.blank h.sectorSize) (ds.map ADirent.encode))

/-- body of the `try` in `write_file`, diskimages.py:346-355, with `save_dirent` (utils.py:234-238),
`assign_sector_numbers` (utils.py:322-343) and `update_sector_info` (ataridos.py:170-172) inlined.
The file type is ignored by `AtariDosDirent.set_values`. -/
def AImg.writeBody (name data : Bytes) : Proc AImg Unit := fun m =>
  match AImg.getDirectory m with
  | (.error e, m) => (.error e, m)
  | (.ok ds, m) =>
    let index := getFreeDirent ds
    let dirent := ADirent.setValues name index
    match buildSectors m.hdr data with
    | .error e => (.error e, m)
    | .ok sl =>
      match m.getVtocObject with
      | .error e => (.error e, m)
      | .ok vt =>
        match reserve sl.length vt.map with
        | .error e => (.error e, m)
        | .ok (order, map') =>
          match AImg.calcBitmap { vt with map := map' } m with
          | (.error e, m) => (.error e, m)
          | (.ok vt, m) =>
            let sl := linkSectors WSector.setNextAtari dirent.fileNum sl order
            let dirent := { dirent with numSectors := sl.length, startingSector := firstSector sl }
            let ds := setDirent ds index dirent
            let dirSectors := calcDirSectors m.hdr ds
            match AImg.writeSectors sl m with
            | (.error e, m) => (.error e, m)
            | (.ok _, m) =>
              match AImg.writeSectors vt.sectors m with
              | (.error e, m) => (.error e, m)
              | (.ok _, m) => AImg.writeSectors dirSectors m

/-- `try … except AtrError: rollback; raise … finally: get_metadata()`, diskimages.py:344-360, 380-394, 397-407.
An exception in the `finally` clause replaces the pending one. -/
def AImg.transaction (body : Proc AImg Unit) : Proc AImg Unit := fun m =>
  let state := m.beginTransaction
  match body m with
  | (.ok _, m) => AImg.getMetadata m
  | (.error e, m) =>
    let m := if e.isAtr then m.rollback state else m
    match AImg.getMetadata m with
    | (.ok _, m) => (.error e, m)
    | (.error e', m) => (.error e', m)

/-- `write_file`, diskimages.py:337-360 -/
def AImg.writeFile (name data : Bytes) : Proc AImg Unit := AImg.transaction (AImg.writeBody name data)

/-- `Directory.find_dirent`, utils.py:222-232 for a name: the first entry of that name, *deleted entries included*;
returns the index as well -/
def findDirentIdx (ds : List ADirent) (name : Bytes) : Except Err (Nat × ADirent) :=
  match ds.findIdx? (fun d => d.filename == name) with
  | some i => .ok (i, ds.getD i {})
  | none => .error .fileNotFound

/-- body of the `try` in `delete_file`, diskimages.py:382-389, with `get_sectors_in_vtoc` (ataridos.py:188-197),
`remove_dirent` (utils.py:240-243) and `free_sector_list` (utils.py:365-368) -/
def AImg.deleteBody (name : Bytes) : Proc AImg Unit := fun m =>
  match AImg.getDirectory m with
  | (.error e, m) => (.error e, m)
  | (.ok ds, m) =>
    match findDirentIdx ds name with
    | .error e => (.error e, m)
    | .ok (i, d) =>
      match d.readChain m.hdr m.bytes with
      | .error e => (.error e, m)
      | .ok chain =>
        match m.getVtocObject with
        | .error e => (.error e, m)
        | .ok vt =>
          match freeSectors (chain.map (·.1)) vt.map with
          | .error e => (.error e, m)
          | .ok map' =>
            match AImg.calcBitmap { vt with map := map' } m with
            | (.error e, m) => (.error e, m)
            | (.ok vt, m) =>
              let dirSectors := calcDirSectors m.hdr (ds.set i d.markDeleted)
              match AImg.writeSectors vt.sectors m with
              | (.error e, m) => (.error e, m)
              | (.ok _, m) => AImg.writeSectors dirSectors m

/-- `delete_file`, diskimages.py:379-394 -/
def AImg.deleteFile (name : Bytes) : Proc AImg Unit := AImg.transaction (AImg.deleteBody name)

/-- loop of `shred` over `iter_free_sectors`, diskimages.py:400-402, utils.py:314-317, diskimages.py:57-62:
sectors from the first label on; `sector_map[i]` beyond 1279 raises `IndexError`. -/
def AImg.shredLoop (fill : UInt8) (map : List Bool) : List Nat → Proc AImg Unit
  | [], m => (.ok (), m)
  | i :: is, m =>
    match m.hdr.getPos i with
    | .error e => (.error e, m)
    | .ok (pos, size) =>
      match map[i]? with
      | none => (.error .indexError, m)
      | some true => AImg.shredLoop fill map is { m with bytes := fillSlice m.bytes pos (pos + size) fill }
      | some false => AImg.shredLoop fill map is m

/-- body of `shred`, diskimages.py:399-402 -/
def AImg.shredBody (fill : Nat) : Proc AImg Unit := fun m =>
  match m.getVtocObject with
  | .error e => (.error e, m)
  | .ok vt =>
    AImg.shredLoop (UInt8.ofNat fill) vt.map (List.range' m.hdr.startingSectorLabel m.hdr.maxSectors) m

/-- `shred`, diskimages.py:396-407 -/
def AImg.shred (fill : Nat) : Proc AImg Unit := AImg.transaction (AImg.shredBody fill)

end Atr
