import Verif.Model.Executables
/-!
# Apple ][ Standard Delivery boot disks: `/repo/atrcopy/standard_delivery.py`
-/
namespace Atr

/-- `fstbt`, fstbt.py:1-4: machine code of the loader, in front of the jump target and the address list -/
def fstbtCode : Bytes := [
   0x01, 0xa8, 0x8d, 0x50, 0xc0, 0x8d, 0x52, 0xc0, 0x8d, 0x57, 0xc0, 0xd0, 0x09, 0xc6, 0xfe, 0x10,
   0x36, 0xa9, 0xd0, 0x8d, 0x0b, 0x08, 0xee, 0x1a, 0x08, 0xad, 0x86, 0x08, 0xc9, 0xc0, 0xf0, 0x64,
   0xc9, 0xd0, 0xf0, 0xf2, 0xc9, 0xd1, 0xd0, 0x05, 0x8d, 0x54, 0xc0, 0xf0, 0xe9, 0xc9, 0xd2, 0xd0,
   0x05, 0x8d, 0x55, 0xc0, 0xf0, 0xe0, 0xc9, 0xe0, 0x90, 0x0b, 0x29, 0x1f, 0x85, 0xfe, 0xa9, 0x24,
   0x8d, 0x0b, 0x08, 0x10, 0xc6, 0x85, 0x27, 0xc8, 0xc0, 0x10, 0x90, 0x09, 0xf0, 0x05, 0x20, 0x67,
   0x08, 0xa8, 0x2c, 0xa0, 0x01, 0x84, 0x3d, 0xc8, 0xa5, 0x27, 0xf0, 0xba, 0x8a, 0x20, 0x7b, 0xf8,
   0x09, 0xc0, 0x48, 0xa9, 0x5b, 0x48, 0x60, 0xe6, 0x41, 0x06, 0x40, 0x20, 0x6f, 0x08, 0x18, 0x20,
   0x74, 0x08, 0xe6, 0x40, 0xa5, 0x40, 0x29, 0x03, 0x2a, 0x05, 0x2b, 0xa8, 0xb9, 0x80, 0xc0, 0xa9,
   0x30, 0x4c, 0xa8, 0xfc, 0x4c]

/-- one element of `chunks`: start page, data in whole pages, `show_hgr`; standard_delivery.py:84-87 -/
structure Chunk where
  start : Nat
  data : Bytes
  showHgr : Bool
deriving DecidableEq, Repr

/-- body of the first loop, standard_delivery.py:74-89: data padded to whole pages.  Origins 0x2001 and 0x4001 mean "load
at 0x2000 / 0x4000 without showing the graphics page". -/
def mkChunk (s : Seg) : Chunk :=
  let start := s.origin / 256
  let trick := (start == 0x20 || start == 0x40) && s.origin % 256 == 1
  let padding := if trick then 0 else s.origin % 256
  let size := (s.data.length + padding + 255) / 256 * 256
  { start := start, data := splice (List.replicate size 0) padding s.data, showHgr := !trick }

/-- `sector_order`, standard_delivery.py:100 -/
def deliveryOrder : List Nat := [0, 14, 13, 12, 11, 10, 9, 8, 7, 6, 5, 4, 3, 2, 1, 15]

/-- `chunk_hi` of a graphics screen, standard_delivery.py:118 -/
def hgrPages : List Nat :=
  [0x20, 0x24, 0x28, 0x2c, 0x30, 0x34, 0x38, 0x3c, 0x21, 0x25, 0x29, 0x2d, 0x31, 0x35, 0x39, 0x3d,
   0x22, 0x26, 0x2a, 0x2e, 0x32, 0x36, 0x3a, 0x3e, 0x23, 0x27, 0x2b, 0x2f, 0x33, 0x37, 0x3b, 0x3f]

/-- `address_order` for one group of at most 32 pages, standard_delivery.py:124-129 -/
def pageRun (subset : List Nat) : List Nat :=
  match subset with
  | [] => []
  | p :: _ => if subset.length > 2 then [p, 0xe0 + subset.length - 1] else subset

/-- `chunk_hi` and `address_order` of a chunk, standard_delivery.py:114-131 -/
def chunkPages (c : Chunk) (firstPage1 : Bool) : List Nat × List Nat :=
  let count := c.data.length / 256
  if c.start = 0x20 ∧ count = 32 ∧ firstPage1 then (hgrPages, hgrPages)
  else
    let hi := List.range' c.start count
    if hi.length > 2 then (hi, (chunks 32 hi).flatMap pageRun) else (hi, hi)

/-- inner loop, standard_delivery.py:133-147: each page gets the next sector of the order.  State: `index` and `track`;
result: the new state and the sectors with their numbers. -/
def placePages (c : Chunk) : Nat → Nat → List Nat → (Nat × Nat) × List WSector
  | index, track, [] => ((index, track), [])
  | index, track, p :: ps =>
    let i := (p - c.start) * 256
    let s := { WSector.ofData 256 (slice c.data i (i + 256)) with num := track * 16 + deliveryOrder.getD index 0 }
    let (index', track') := if index + 1 ≥ deliveryOrder.length then (0, track + 1) else (index + 1, track)
    let (st, rest) := placePages c index' track' ps
    (st, s :: rest)

/-- end of the second loop, standard_delivery.py:149-155: what is appended for showing a graphics page, and the new
`first_page_1` -/
def showCodes (c : Chunk) (firstPage1 : Bool) : List Nat × Bool :=
  if c.showHgr then
    if c.start = 0x40 then ([0xd2], firstPage1)
    else if c.start = 0x20 then (if firstPage1 then [] else [0xd1], false)
    else ([], firstPage1)
  else ([], firstPage1)

/-- second loop, standard_delivery.py:113-155: the sectors (without the boot sector) and the address list (without the
leading 0xd1) -/
def deliveryLoop : Nat → Nat → Bool → List Chunk → List WSector × List Nat
  | _, _, _, [] => ([], [])
  | index, track, first, c :: cs =>
    let (hi, order) := chunkPages c first
    let (st, sectors) := placePages c index track hi
    let (codes, first') := showCodes c first
    let (rest, addrs) := deliveryLoop st.1 st.2 first' cs
    (sectors ++ rest, order ++ codes ++ addrs)

/-- `get_fstbt_code`, standard_delivery.py:166-172: code, jump target, address list and the end
marker, stored in the boot sector; numbers wrap modulo 256.  The list must fit, otherwise `ValueError`. -/
def bootSector (addrs : List Nat) (runAddr : Nat) : Except Err Bytes :=
  let data := splice (List.replicate 256 0) 0 fstbtCode
  let data := splice data fstbtCode.length [UInt8.ofNat (runAddr % 256), UInt8.ofNat (runAddr / 256)]
  let l := (addrs ++ [0xc0]).map UInt8.ofNat
  assignSlice data (fstbtCode.length + 2) (fstbtCode.length + 2 + l.length) l

/-- `write_sector_list`, diskimages.py:373-377, on an image with the geometry of `StandardDeliveryHeader.check_size`
(standard_delivery.py:29-35): 560 sectors of 256 bytes from sector 0; `BaseHeader.get_pos` (diskimages.py:64-75) raises
`NameError` for other sectors, because it names an exception class that is not imported there. -/
def writeDelivery : List WSector → Bytes → Except Err Bytes
  | [], b => .ok b
  | s :: ss, b =>
    if s.num < 560 then
      match assignSlice b (s.num * 256) (s.num * 256 + 256) s.data with
      | .error e => .error e
      | .ok b => writeDelivery ss b
    else .error .nameError

/-- `StandardDeliveryImage.create_boot_image`, standard_delivery.py:65-162: the bytes of the image -/
def createDelivery (segs : List Seg) (runAddr : Option Nat) : Except Err Bytes :=
  match (match runAddr, segs with
    | some a, _ => Except.ok a
    | none, s :: _ => Except.ok s.origin
    | none, [] => Except.error Err.indexError) with
  | .error e => .error e
  | .ok run =>
    let (sectors, addrs) := deliveryLoop 1 0 true (segs.map mkChunk)
    match bootSector (0xd1 :: addrs) run with
    | .error e => .error e
    | .ok boot =>
      writeDelivery ({ num := 0, size := 256, data := boot } :: sectors) (List.replicate 143360 0)

end Atr
