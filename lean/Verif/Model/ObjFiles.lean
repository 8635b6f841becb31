import Verif.Model.Images
import Verif.Model.Assemble
/-!
# Object files of any kind: `/repo/atrcopy/__init__.py:247-260`

`assemble` and `boot` look at the segments of every file given with `--obj`, whatever the file is taken for: origin and bytes of a segment, and whether it has a
`run_address` (only `RunAddressSegment`, ataridos.py:260-266).  Segments whose origin is not positive are passed over.
-/
namespace Atr

/-- origins of the segments of an Atari disk: ataridos.py:592-607, 725-739, spartados.py:181-193, kboot.py:57-61.  `addr` is the address in the boot record of `n`
bytes.  All others have the origin 0, those of the files too. -/
def ISeg.origin (h : AHeader) (addr n : Nat) (s : ISeg) : Nat :=
  match s.name with
  | .bootSectors | .bootHeader => addr
  | .bootCode => addr + n
  | .kbootExe => match h.getPos 4 with | .ok x => x.1 | .error _ => 0
  | _ => 0

/-- the address in the boot record that is read from a sector, ataridos.py:595-599, 728-732, spartados.py:184 -/
def bootAddr (h : AHeader) (b : Bytes) (sector : Nat) : Nat :=
  match h.getSectors b sector sector with
  | .ok d => le16 (d.getD 2 0) (d.getD 3 0)
  | .error _ => 0

/-- origins of the segments of a DOS 3.3 disk but for the files, dos33.py:486-566 -/
def ISeg.origin33 (s : ISeg) : Nat :=
  match s.name with
  | .boot1 => 0x800
  | .boot2 => 0x3700
  | .relocator => 0x1b00
  | .boot3 => 0x1d00
  | _ => 0

/-- origin of the segment of a DOS 3.3 file, dos33.py:569-597: the address in a binary file minus 4 -/
def DDirent.segOrigin (maxS : Nat) (b : Bytes) (d : DDirent) : Int :=
  match d.getFile maxS b with
  | .error _ => 0
  | .ok data =>
    match d.tsMap maxS b with
    | .error _ => 0
    | .ok (_, map) =>
      if d.ftype = 4 ∧ (map.flatMap fun s => slice b (256 * s) (256 * s + 256)) ≠ [] then (le16 (data.getD 0 0) (data.getD 1 0) : Int) - 4 else 0

/-- the segments of an executable one after the other; the first exception ends it -/
def asObjAll : List XSeg → Except Err (List ObjSeg)
  | [] => .ok []
  | s :: l =>
    match s.asObj with
    | .error e => .error e
    | .ok o =>
      match asObjAll l with
      | .error e => .error e
      | .ok r => .ok (o :: r)

/-- `parser.segments` as lines 252-260 see them.  `raw` is the file, unpacked; the first segment is the container segment with all of it (parsers.py:77; for a MAME archive
that is the archive).  Segments of files on DOS 3.3 disks are indexed (dos33.py:583), and `SegmentData` refuses indexed data (segments.py:1243, utils.py:28-35): `TypeError`.
The other segments with an origin are slices.  Cartridges: cartridge.py:239-262; archives: mame.py:58-64. -/
def Image.objSegs (raw : Bytes) : Image → Except Err (List ObjSeg)
  | .xex segs =>
    match asObjAll segs with
    | .error e => .error e
    | .ok l => .ok (.seg 0 raw :: l)
  | .bin s => .ok [.seg 0 raw, .seg s.origin s.data]
  | .rom d => .ok [.seg 0 raw, .seg 0 d]
  | .cart _ _ h =>
    .ok (.seg 0 raw :: .seg 0 (slice raw 0 h.headerOffset) ::
      .seg h.mainOrigin (slice raw (h.headerOffset + h.mainOffset * 1024) (h.headerOffset + h.mainOffset * 1024 + h.mainSize * 1024)) ::
      h.banks.map fun o => .seg h.bankOrigin (slice raw (h.headerOffset + o * 1024) (h.headerOffset + o * 1024 + h.bankSize * 1024)))
  | .mame data ranges => .ok (.seg 0 raw :: ranges.map fun r => .seg r.1 (slice data r.1 r.2))
  | .atari m segs => .ok (.seg 0 raw :: segs.map fun s => .seg (s.origin m.hdr (bootAddr m.hdr m.bytes 360) 20) s.data)
  | .boot m segs => .ok (.seg 0 raw :: segs.map fun s => .seg (s.origin m.hdr (bootAddr m.hdr m.bytes 1) 6) s.data)
  | .sparta m segs => .ok (.seg 0 raw :: segs.map fun s => .seg (s.origin m.hdr (bootAddr m.hdr m.bytes 1) 43) s.data)
  | .kboot m segs | .disk m segs => .ok (.seg 0 raw :: segs.map fun s => .seg (s.origin m.hdr 0 0) s.data)
  | .dos33 m segs =>
    if m.files.any (fun d => decide (0 < d.segOrigin m.maxSectors m.bytes)) then .error .typeError
    else .ok (.seg 0 raw :: segs.map fun s => .seg s.origin33 s.data)

/-- the file unpacked, `__init__.py:60-62` -/
def unpacked (L : Libs) (b : Bytes) : Bytes :=
  match guessContainer (knownContainers L.dec) b with
  | .ok (some c) => c
  | _ => b

/-- lines 248-260 for one file with the contents `b`: `none` if `find_diskimage` raised an `AtrError` (the file is skipped).  Exceptions of the decompressors of python
are not told apart. -/
def objRead (L : Libs) (b : Bytes) : Except Err (Option (List ObjSeg)) :=
  match detect L b with
  | .error (.py e) => if e.isAtr then .ok none else .error e
  | .error (.ext _) => .error .ioError
  | .ok (i, _) =>
    match i.objSegs (unpacked L b) with
    | .error e => .error e
    | .ok l => .ok (some l)

end Atr
