import Verif.Model.Py
/-!
# `/repo/atrcopy/utils.py`: sectors to be written, allocation
-/
namespace Atr

/-- `WriteableSector`, utils.py:63-109.  `num` is `_sector_num` (`-1` before assignment in Python; here `0`, it is
always assigned before use).  `ptr` and `used` are always equal. -/
structure WSector where
  num : Nat := 0
  size : Nat
  fileNum : Nat := 0
  data : Bytes
  used : Nat := 0
  ptr : Nat := 0
deriving Repr, DecidableEq

/-- `WriteableSector.__init__` without data, utils.py:64-71 -/
def WSector.blank (size : Nat) : WSector := { size := size, data := List.replicate size 0 }

/-- `WriteableSector.add_data`, utils.py:102-109; returns the sector and the data that did not fit. -/
def WSector.addData (s : WSector) (d : Bytes) : WSector × Bytes :=
  let count := if s.ptr + d.length > s.size then s.size - s.ptr else d.length
  ({ s with data := splice s.data s.ptr (d.take count), ptr := s.ptr + count, used := s.used + count },
   d.drop count)

/-- `WriteableSector.__init__` with data, utils.py:64-73 -/
def WSector.ofData (size : Nat) (d : Bytes) : WSector := ((WSector.blank size).addData d).1

/-- `VTOC.get_next_free_sector`, utils.py:353-360: the lowest-numbered free sector.  The sector map is a list of
Booleans, `true` = free (Python: `uint8`, 1 = free; it only ever holds 0 and 1). -/
def getNextFree (m : List Bool) : Except Err (Nat × List Bool) :=
  match m.findIdx? id with
  | some n => .ok (n, m.set n false)
  | none => .error .notEnoughSpace

/-- loop of `VTOC.reserve_space`, utils.py:345-348 -/
def reserve : Nat → List Bool → Except Err (List Nat × List Bool)
  | 0, m => .ok ([], m)
  | k + 1, m =>
    match getNextFree m with
    | .error e => .error e
    | .ok (n, m') =>
      match reserve k m' with
      | .error e => .error e
      | .ok (ns, m'') => .ok (n :: ns, m'')

/-- loop of `VTOC.assign_sector_numbers`, utils.py:334-342: number the sectors, store the file number, and link
each sector to the following one, the last one to 0.  `setNext` is the `next_sector_num` setter of the sector class. -/
def linkSectors (setNext : WSector → Nat → WSector) (fileNum : Nat) : List WSector → List Nat → List WSector
  | s :: ss, n :: ns =>
    let s' := { s with num := n, fileNum := fileNum }
    let next := match ss, ns with
      | _ :: _, m :: _ => m
      | _, _ => 0
    setNext s' next :: linkSectors setNext fileNum ss ns
  | ss, _ => ss

/-- `BaseSectorList.first_sector`, utils.py:134-138 -/
def firstSector : List WSector → Int
  | [] => -1
  | s :: _ => s.num

/-- loop of `VTOC.free_sector_list`, utils.py:365-367; `sector_map[n]` out of range raises `IndexError` after the
previous entries were set (the map is local, so only the exception matters). -/
def freeSectors : List Nat → List Bool → Except Err (List Bool)
  | [], m => .ok m
  | n :: ns, m => if n < m.length then freeSectors ns (m.set n true) else .error .indexError

/-- `Directory.store_encoded`, utils.py:278-286.  State: finished sectors (in order) and current sector.
`fresh` is what `get_dirent_sector()` returns.  The fuel bounds the `while True` loop: every round but the first
stores at least one byte when a fresh sector has room. -/
def storeEncodedFuel (fresh : WSector) : Nat → List WSector × WSector → Bytes → List WSector × WSector
  | 0, st, _ => st
  | fuel + 1, (done, cur), d =>
    let (cur', rest) := cur.addData d
    if rest.length > 0 then storeEncodedFuel fresh fuel (done ++ [cur'], fresh) rest
    else (done, cur')

/-- `Directory.store_encoded`, utils.py:278-286 -/
def storeEncoded (fresh : WSector) (st : List WSector × WSector) (d : Bytes) : List WSector × WSector :=
  storeEncodedFuel fresh (d.length + 2) st d

/-- `Directory.calc_sectors` and `finish_encoding` without the sector numbers, utils.py:249-267, 288-290.
`encoded` are the encoded entries in index order.  The dictionary of entries is always filled for indexes
`0 … n-1` (`get_directory` sets consecutive indexes, `get_free_dirent` returns one of these or `n`), so the
"missing entries" loop never runs and is left out. -/
def calcSectors (fresh : WSector) (encoded : List Bytes) : List WSector :=
  let (done, cur) := encoded.foldl (storeEncoded fresh) ([], fresh)
  if cur.ptr = 0 then done else done ++ [cur]

end Atr
