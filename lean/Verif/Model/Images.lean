import Verif.Model.Detect
/-!
# Every kind of image under the command line

`Cli` and `Dos33` give the drivers of the two formats that can be written to.  Here is what the same commands do to the other
kinds of images, `/repo/atrcopy/spartados.py`, `kboot.py`, `ataridos.py`, `cartridge.py`, `mame.py`, `dos33.py`.
-/
namespace Atr

/-- `get_metadata` of a SpartaDOS image, diskimages.py:161-165 with spartados.py:146-179: the header is not read again -/
def SImg.reload (m : SImg) : Except Err SImg :=
  match spartaBoot m.hdr m.bytes with
  | .error e => .error e
  | .ok root =>
    match spartaDirectory m.hdr m.bytes root with
    | .error e => .error e
    | .ok ds => .ok { m with rootDir := root, files := ds }

/-- `get_vtoc_object`, diskimages.py:332-335.  SpartaDOS images inherit `vtoc_class` from Atari DOS (ataridos.py:469-471), so
`AtariDosVTOC.parse_segments` (ataridos.py:35-38) reads the bitmap as if it were an Atari DOS VTOC: the bits of bytes
0x0a-0x63 are taken for sectors 0-719. -/
def SImg.vtocMap (m : SImg) : Except Err (List Bool) :=
  match spartaVtocSegs m.hdr m.bytes with
  | .error e => .error e
  | .ok segs =>
    let bits := unpackbits (slice ((segs.map (·.data)).headD []) 0x0a 0x64)
    if bits.length = 720 then .ok (bits ++ List.replicate 560 false) else .error .valueError

/-- `shred` of a SpartaDOS image, diskimages.py:396-407.  The loop is that of Atari DOS images.  Rolling back changes nothing (see
`AImg.rollback`); `get_metadata` runs in any case and its exception wins. -/
def SImg.shred (fill : Nat) : Proc SImg Unit := fun m =>
  let (r, m) : Except Err Unit × SImg :=
    match m.vtocMap with
    | .error e => (.error e, m)
    | .ok map =>
      match AImg.shredLoop (UInt8.ofNat fill) map (List.range' m.hdr.startingSectorLabel m.hdr.maxSectors) { hdr := m.hdr, bytes := m.bytes } with
      | (r, a) => (r, { m with bytes := a.bytes })
  match m.reload with
  | .error e => (.error e, m)
  | .ok m => (r, m)

/-- file name of the only entry of a KBoot image, kboot.py:8-17: the image has no name yet when it is parsed -/
def kbootName : Bytes := "KBOOT.XEX".toUTF8.toList

/-- `find_diskimage`, `__init__.py:85-98`; exceptions of the decompressors of python are not told apart -/
def loadImage (L : Libs) (b : Bytes) : Except Err Image :=
  match detect L b with
  | .ok (i, _) => .ok i
  | .error (.py e) => .error e
  | .error (.ext _) => .error .ioError

/-- `image.bytes` of the images that may be saved (`C80_saved`) -/
def Image.bytes : Image → Bytes
  | .kboot m _ | .boot m _ | .disk m _ => m.bytes
  | .sparta m _ => m.bytes
  | .atari m _ => m.bytes
  | .dos33 m _ => m.bytes
  | .mame d _ | .rom d => d
  | .xex _ | .cart .. | .bin _ => []

/-- `find_dirent`, diskimages.py:281-288.  Boot disks, unidentified disks, cartridges and ROMs have no files.  `AtariDosFile`
(ataridos.py:270) and `Dos33BinFile` (dos33.py:600) are no disk images and have no such method. -/
def Image.find (t : Char) (i : Image) (name : Bytes) : Except Err Unit :=
  match i with
  | .atari m _ => atariDriver.find m name
  | .dos33 m _ => (dos33Driver t).find m name
  | .kboot _ _ => if name = kbootName then .ok () else .error .fileNotFound
  | .sparta m _ => if m.files.any (fun d => d.filename == name) then .ok () else .error .fileNotFound
  | .boot .. | .disk .. | .cart .. | .mame .. | .rom _ => .error .fileNotFound
  | .xex _ | .bin _ => .error .attributeError

/-- `delete_file`, diskimages.py:379-394.  `get_directory` of KBoot (kboot.py:49) and SpartaDOS images (spartados.py:167) takes no
argument: `TypeError`.  That of boot and unidentified disks does nothing (ataridos.py:714), so the directory has no such file.
Headers of cartridges and ROMs have no `sector_size` (utils.py:112-115), a MAME archive has no header. -/
def Image.delete (t : Char) (name : Bytes) : Proc Image Unit := fun i =>
  match i with
  | .atari m s => match atariDriver.delete name m with
    | (r, m) => (r, .atari m s)
  | .dos33 m s => match (dos33Driver t).delete name m with
    | (r, m) => (r, .dos33 m s)
  | .kboot .. | .sparta .. => (.error .typeError, i)
  | .boot .. | .disk .. => (.error .fileNotFound, i)
  | .cart .. | .mame .. | .rom _ | .xex _ | .bin _ => (.error .attributeError, i)

/-- `write_file`, diskimages.py:337-360.  Boot and unidentified disks have no VTOC segments (ataridos.py:741), and
`AtariDosVTOC.parse_segments` takes the first one (ataridos.py:36) after the data has been cut into sectors. -/
def Image.write (t : Char) (name data : Bytes) : Proc Image Unit := fun i =>
  match i with
  | .atari m s => match atariDriver.write name data m with
    | (r, m) => (r, .atari m s)
  | .dos33 m s => match (dos33Driver t).write name data m with
    | (r, m) => (r, .dos33 m s)
  | .kboot .. | .sparta .. => (.error .typeError, i)
  | .boot m _ | .disk m _ => match buildSectors m.hdr data with
    | .error e => (.error e, i)
    | .ok _ => (.error .indexError, i)
  | .cart .. | .mame .. | .rom _ | .xex _ | .bin _ => (.error .attributeError, i)

/-- `shred`, diskimages.py:396-407 -/
def Image.shred (t : Char) : Proc Image Unit := fun i =>
  match i with
  | .atari m s => match atariDriver.shred m with
    | (r, m) => (r, .atari m s)
  | .dos33 m s => match (dos33Driver t).shred m with
    | (r, m) => (r, .dos33 m s)
  | .sparta m s => match SImg.shred 0 m with
    | (r, m) => (r, .sparta m s)
  | .kboot .. | .boot .. | .disk .. => (.error .indexError, i)
  | .cart .. | .mame .. | .rom _ | .xex _ | .bin _ => (.error .attributeError, i)

/-- the command line on any file; `t` is the argument of `--filetype` (see `dos33Driver`) -/
def imageDriver (L : Libs) (t : Char) : Driver Image where
  load := loadImage L
  bytes := Image.bytes
  find := Image.find t
  delete := Image.delete t
  write := Image.write t
  shred := Image.shred t

end Atr
