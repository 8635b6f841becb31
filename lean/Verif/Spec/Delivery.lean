import Verif.Model.Py
/-!
# Specification of Standard Delivery boot disks

What the Apple ][ sees: the order in which the boot loader visits sectors, the meaning of its address list, and the pages a
segment occupies in memory.  Independent of the code in `/repo`; the loader is described from its machine code
(`/repo/atrcopy/fstbt.py`), which is proved to do this in `Props/DeliveryRun.lean`.
-/
namespace Atr

/-- sector `s` of a disk in DOS order -/
def dskSector (b : Bytes) (s : Nat) : Bytes := slice b (256 * s) (256 * s + 256)

/-- physical sectors in the order the loader reads them: the even ones, then the odd ones -/
def loaderPhysical (i : Nat) : Nat := if i < 8 then 2 * i else 2 * (i - 8) + 1

/-- DOS 3.3 order: position in a disk image file of the physical sectors of a track -/
def dosSkew : List Nat := [0, 7, 14, 6, 13, 5, 12, 4, 11, 3, 10, 2, 9, 1, 8, 15]

/-- number, in the image, of the `j`-th sector the loader visits -/
def visited (j : Nat) : Nat := 16 * (j / 16) + dosSkew.getD (loaderPhysical (j % 16)) 0

/-- Pages the loader can fill: not the zero page (the loader takes 0 as "skip"), not the stack, the buffer of the disk ROM
or the loader itself, and below the I/O page. -/
def loadable (p : Nat) : Bool := p != 0 && p != 1 && p != 3 && p != 8 && decide (p < 0xc0)

/-- The loader on its address list.  `page` is the page after the one loaded last, `j` the number of sectors visited so far.
0xc0 ends the list, 0xd0 does nothing, 0xd1 and 0xd2 show a graphics page, 0xe0+n loads `n` more pages following the last
one, anything else is the page for the next sector.  Result: pages and the visit that fills them; `none` when the loader
gets lost. -/
def runLoader : List UInt8 → Nat → Nat → Option (List (Nat × Nat))
  | [], _, _ => none
  | a :: as, page, j =>
    if a.toNat = 0xc0 then some []
    else if a.toNat = 0xd0 ∨ a.toNat = 0xd1 ∨ a.toNat = 0xd2 then runLoader as page j
    else if 0xe0 ≤ a.toNat then
      let n := a.toNat % 32
      if (List.range' page n).all loadable then
        (runLoader as (page + n) (j + n)).map ((List.range' page n).zip (List.range' j n) ++ ·)
      else none
    else if loadable a.toNat then (runLoader as (a.toNat + 1) (j + 1)).map ((a.toNat, j) :: ·)
    else none

/-- memory after one sector was loaded to a page -/
def loadPage (b : Bytes) (mem : Nat → UInt8) (l : Nat × Nat) : Nat → UInt8 :=
  fun x => if x / 256 = l.1 then (dskSector b (visited l.2)).getD (x % 256) 0 else mem x

/-- booting the disk with memory `mem`: the memory when the loader is done and the address it jumps to -/
def bootDisk (b : Bytes) (mem : Nat → UInt8) : Option ((Nat → UInt8) × Nat) :=
  match runLoader (slice (dskSector b 0) 135 256) 0 1 with
  | none => none
  | some loads => some (loads.foldl (loadPage b) mem, le16 ((dskSector b 0).getD 133 0) ((dskSector b 0).getD 134 0))

/-- where a segment goes: its origin, except that 0x2001 and 0x4001 stand for the start of the page -/
def loadAddr (origin : Nat) : Nat := if origin = 0x2001 ∨ origin = 0x4001 then origin - 1 else origin

/-- number of pages touched by `len` bytes at the given origin -/
def pageCount (origin len : Nat) : Nat := (loadAddr origin % 256 + len + 255) / 256

/-- contents of page `p` when only the data at address `a` is there -/
def pageBytes (a : Nat) (d : Bytes) (p : Nat) : Bytes :=
  (List.range 256).map fun i => if a ≤ 256 * p + i then d.getD (256 * p + i - a) 0 else 0

/-- pages of one segment, in ascending order, with their contents -/
def segPages (origin : Nat) (d : Bytes) : List (Nat × Bytes) :=
  (List.range' (origin / 256) (pageCount origin d.length)).map fun p => (p, pageBytes (loadAddr origin) d p)

/-- the picture a segment brings: 0 for one on graphics page 1 (from 0x2000), 1 for one on page 2 (from 0x4000).  Origins 0x2001 and 0x4001
stand for data of these pages that is not to be shown. -/
def pictureAt (origin : Nat) : Option UInt8 :=
  if origin = 0x2001 ∨ origin = 0x4001 then none
  else if origin / 256 = 0x20 then some 0
  else if origin / 256 = 0x40 then some 1
  else none

end Atr
