import Verif.Spec.SegLines
import Verif.Spec.Metadata
/-!
# Reading the long description of a segment

From the end, as the names may hold anything.
-/
namespace Atr

/-- what a description says: so many bytes; so many bytes that are not in one piece, the first at byte `pos` of the file; no bytes; a part at these addresses (`stop` is
the first address behind it) that begins at byte `pos`; sectors (first and last) with so many bytes -/
inductive VerboseSaid
  | bytes (name : List Char) (count : Nat)
  | scattered (name : List Char) (count pos : Nat)
  | nothing (name : List Char)
  | placed (name : List Char) (start stop : Int) (count pos : Nat)
  | sectors (name : List Char) (first last count : Nat)
deriving DecidableEq, Repr

/-- `NAME ($0100 bytes) non-contiguous file; file index of first byte: $0190` -/
def readScattered (t : List Char) : Option VerboseSaid := do
  let (pos, t) ← lastHex t
  let (n, t) ← lastHex (← endsIn " bytes) non-contiguous file; file index of first byte: $".toList t)
  return .scattered (← endsIn " ($".toList t) n pos

/-- `NAME  address range: $0600-$0680 ($0080 bytes), file index of first byte: $0006` -/
def readRange (t : List Char) : Option VerboseSaid := do
  let (pos, t) ← lastHex t
  let (n, t) ← lastHex (← endsIn " bytes), file index of first byte: $".toList t)
  let (stop, t) ← lastAddress (← endsIn " ($".toList t)
  let (start, t) ← lastAddress (← endsIn "-".toList t)
  return .placed (← endsIn "  address range: ".toList t) start stop n pos

/-- `NAME ($0100 bytes)` and `NAME (empty file)` -/
def readCount (t : List Char) : Option VerboseSaid :=
  match readBytes t, readNothing t with
  | some (.bytes name n), _ => some (.bytes name n)
  | _, some (.nothing name) => some (.nothing name)
  | _, _ => none

/-- `NAME (sector 360) $80 bytes`, `NAME (sectors 361-368) $400 bytes` -/
def readSectorRow (t : List Char) : Option VerboseSaid := do
  let (n, t) ← lastHex (← endsIn " bytes".toList t)
  match ← readSectors (← endsIn " $".toList t) with
  | .sectors name first last => return .sectors name first last n
  | _ => none

/-- any description -/
def readVerbose (t : List Char) : Option VerboseSaid := (readScattered t).or ((readRange t).or ((readCount t).or (readSectorRow t)))

/-- the verbose name of a file of an Atari disk: `NAME.EXT (12 sectors, first@345) flags=[DOS2, IN_USE]` -/
def readVerboseName (t : List Char) : Option (List Char × Nat × Nat × List (List Char)) := do
  let flags ← readFlags (← expect [' '] (t.reverse.takeWhile (· != ')')).reverse)
  let (first, t) ← lastDec (← endsIn ")".toList (t.reverse.dropWhile (· != ')')).reverse)
  let (num, t) ← lastDec (← endsIn " sectors, first@".toList t)
  return (← endsIn " (".toList t, num, first, flags)

/-- the verbose name of a DOS 3.3 file, `NAME (12 sectors, first@345) *B`: name, sectors, first sector, lock and type -/
def readVerboseName33 (t : List Char) : Option (List Char × Nat × Nat × Char × Char) := do
  match (t.reverse.take 2).reverse with
  | [lock, kind] =>
    let (first, t) ← lastDec (← endsIn ") ".toList (t.reverse.drop 2).reverse)
    let (num, t) ← lastDec (← endsIn " sectors, first@".toList t)
    return (← endsIn " (".toList t, num, first, lock, kind)
  | _ => none

/-- the verbose name of a SpartaDOS file, `NAME.EXT (300 bytes, sector map@27) flags=[IN_USE] 31/12/99 23:59:58`: name, length, first map sector, flags, date and time -/
def readVerboseNameS (t : List Char) : Option (List Char × Nat × Nat × List (List Char) × List Nat) := do
  let (stamp, t) ← readStamp t
  let t ← endsIn " ".toList t
  let flags ← readFlags (← expect [' '] (t.reverse.takeWhile (· != ')')).reverse)
  let (map, t) ← lastDec (← endsIn ")".toList (t.reverse.dropWhile (· != ')')).reverse)
  let (length, t) ← lastDec (← endsIn " bytes, sector map@".toList t)
  return (← endsIn " (".toList t, length, map, flags, stamp)

/-- a description with an error message (without quotes) behind it -/
def readError (t : List Char) : Option (List Char × List Char) := do
  let t ← endsIn "'".toList t
  return (← endsIn "  error='".toList (t.reverse.dropWhile (· != '\'')).reverse, (t.reverse.takeWhile (· != '\'')).reverse)

end Atr
