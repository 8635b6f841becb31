import Verif.Model.SegLines
/-!
# The line about the image that every command but `crc` prints first: `/repo/atrcopy/__init__.py:614-615`, `__str__` of the images
-/
namespace Atr

/-- the number of free sectors in the boot record of a SpartaDOS disk, spartados.py:133, 156 (`SImg.open` has made sure that the record is there) -/
def SImg.free (m : SImg) : Nat :=
  match m.hdr.getSectors m.bytes 1 1 with
  | .ok d => le16 (d.getD 13 0) (d.getD 14 0)
  | .error _ => 0

/-- `str(image)` for SpartaDOS disks, spartados.py:118-119.  `total_sectors` is the number in the boot record, which must be that of the image (line 158). -/
def SImg.summary (m : SImg) : Text :=
  m.hdr.summary ++ " Sparta DOS Format: ".toList ++ pctD m.hdr.maxSectors ++ " usable sectors (".toList ++ pctD m.free ++ " free), ".toList ++
    pctD m.files.length ++ " files".toList

/-- `str(image)` for KBoot disks, kboot.py:39-40; `exe_size` is the length of the executable (see `kbootDirent`) -/
def HImg.summaryKboot (m : HImg) : Text := m.hdr.summary ++ " KBoot Format: ".toList ++ pctD m.exe.length ++ " byte executable".toList

/-- `str(image)` for boot disks, ataridos.py:683-684 -/
def HImg.summaryBoot (m : HImg) : Text := m.hdr.summary ++ " Boot Disk".toList

/-- `str(image)` for other Atari disks, ataridos.py:749-750 -/
def HImg.summaryDisk (m : HImg) : Text := m.hdr.summary ++ " Unidentified Contents".toList

/-- `str(image)` for DOS 3.3 disks, dos33.py:391-392, 368-369.  `image_size` is that of the file (dos33.py:374), `max_sectors` comes from the volume table
(dos33.py:443). -/
def DImg.summary (m : DImg) : Text :=
  "DOS 3.3 Disk Image (size=".toList ++ pctD m.bytes.length ++ " (".toList ++ pctD m.maxSectors ++ ['x'] ++ pctD (256 : Nat) ++ "B)".toList

/-- `str(image)` for cartridges, cartridge.py:208-209, 158-159.  `cart_name` is set together with `cart_type`. -/
def CartHeader.summary (h : CartHeader) : Text :=
  (match h.cartType with
    | some t => ((((cartNames.find? fun c => c.1 == t).map (·.2)).getD "").toList)
    | none => []) ++
    " Cartridge (atari800 type=".toList ++ pctD (match h.cartType with | some t => (t : Int) | none => -1) ++ " size=".toList ++ pctD h.cartSize ++
    ", ".toList ++ pctD h.bankSize ++ " banks, crc=".toList ++ pctD h.crc ++ [')']

/-- `str(image)` for MAME archives, mame.py:26-27: `size` is the length of the file -/
def mameSummary (size : Nat) (data : Bytes) (ranges : List (Nat × Nat)) : Text :=
  "MAME Zip file, ".toList ++ pctD ranges.length ++ " ROMs, orig_size=".toList ++ pctD size ++ ", uncompressed=".toList ++ pctD data.length

/-- `str(image)` for ROM images, cartridge.py:317-318, 344-355 -/
def romSummary (t : Mime) (b : Bytes) : Text :=
  pctD (b.length / 1024 : Nat) ++ (match t with
    | .cart2600 => "k Atari 2600 Cartridge".toList
    | .starpath => "k Atari 2600 Starpath Cassette".toList
    | .vectrex => "k Vectrex Cartridge".toList
    | _ => "k ROM image".toList)

/-- `str(image)` for executables, ataridos.py:283-284, dos33.py:611-612 -/
def filesSummary (l : List LSeg) : Text := joined ['\n'] (l.map LSeg.line) ++ ['\n']

/-- `str(parser.image)`; `b` are the bytes of the file (after decompression), `t` its type -/
def Image.summary (t : Mime) (b : Bytes) : Image → Text
  | .atari m _ => m.summary
  | .sparta m _ => m.summary
  | .kboot m _ => m.summaryKboot
  | .boot m _ => m.summaryBoot
  | .disk m _ => m.summaryDisk
  | .dos33 m _ => m.summary
  | .cart _ _ h => h.summary
  | .mame d r => mameSummary b.length d r
  | .rom d => romSummary t d
  | .xex segs => filesSummary (segs.map XSeg.shown)
  | .bin s => filesSummary [.obj "BSAVE data".toList s.origin s.data.length 4]

/-- the text printed, line 615: `mime` only with `-v`, between a parenthesis and a brace -/
def firstLine (name : Text) (verbose : Option Text) (s : Text) : Text :=
  name ++ ": ".toList ++ s ++ (match verbose with | some m => " (".toList ++ m ++ ['}'] | none => [])

end Atr
