import Verif.Spec.Display
/-!
# Reading a printed list of segments

A reader that starts at the end of a line: names may hold anything, what follows them has a fixed form.
-/
namespace Atr

/-- what a line says: a part of so many bytes; a file without bytes; a part at these addresses (`stop` is the first address behind it) that begins at byte `pos` of the
file; a row of sectors (first and last) -/
inductive SegLine
  | bytes (name : List Char) (count : Nat)
  | nothing (name : List Char)
  | placed (name : List Char) (start stop : Int) (count pos : Nat)
  | sectors (name : List Char) (first last : Nat)
deriving DecidableEq, Repr

/-- a hexadecimal digit as `%x` writes it -/
def isHexDigit (c : Char) : Bool := ("0123456789abcdef".toList).contains c

/-- the text ends with `p`; what is before it -/
def endsIn (p t : List Char) : Option (List Char) := if p.isSuffixOf t then some (t.take (t.length - p.length)) else none

/-- the digits at the end as a number, and what is before them -/
def lastNumber (base : Nat) (isDigit : Char → Bool) (t : List Char) : Option (Nat × List Char) :=
  let d := t.reverse.takeWhile isDigit
  if d = [] then none else some (valueOf base d.reverse, (t.reverse.dropWhile isDigit).reverse)

def lastHex : List Char → Option (Nat × List Char) := lastNumber 16 isHexDigit
def lastDec : List Char → Option (Nat × List Char) := lastNumber 10 Char.isDigit

/-- a hexadecimal number after a dollar sign; it may have a minus sign -/
def lastAddress (t : List Char) : Option (Int × List Char) := do
  let (n, t) ← lastHex t
  match endsIn ['$'] t with
  | some t => return (n, t)
  | none => return (-(n : Int), ← endsIn ['$', '-'] t)

/-- `NAME ($5d bytes)` -/
def readBytes (t : List Char) : Option SegLine := do
  let t ← endsIn " bytes)".toList t
  let (n, t) ← lastHex t
  return .bytes (← endsIn " ($".toList t) n

/-- `NAME (empty file)` -/
def readNothing (t : List Char) : Option SegLine := do
  return .nothing (← endsIn " (empty file)".toList t)

/-- `NAME $0600-$0680 ($0080 @ $0006)` -/
def readPlaced (t : List Char) : Option SegLine := do
  let t ← endsIn ")".toList t
  let (pos, t) ← lastHex t
  let t ← endsIn " @ $".toList t
  let (count, t) ← lastHex t
  let t ← endsIn " ($".toList t
  let (stop, t) ← lastAddress t
  let t ← endsIn "-".toList t
  let (start, t) ← lastAddress t
  return .placed (← endsIn " ".toList t) start stop count pos

/-- `NAME (sectors 361-368)`, `NAME (sector 360)` -/
def readSectors (t : List Char) : Option SegLine := do
  let t ← endsIn ")".toList t
  let (last, t) ← lastDec t
  match endsIn " (sector ".toList t with
  | some t => return .sectors t last last
  | none =>
    let t ← endsIn "-".toList t
    let (first, t) ← lastDec t
    return .sectors (← endsIn " (sectors ".toList t) first last

/-- reads a line of any kind -/
def readSegLine (t : List Char) : Option SegLine :=
  (readBytes t).or ((readNothing t).or ((readPlaced t).or (readSectors t)))

/-- the name of a file of an Atari disk, its number of sectors and its first sector: `NAME.EXT 12s@345` -/
def readFileName (t : List Char) : Option (List Char × Nat × Nat) := do
  let (first, t) ← lastDec t
  let t ← endsIn "s@".toList t
  let (num, t) ← lastDec t
  return (← endsIn " ".toList t, num, first)

/-- the name of a file of a DOS 3.3 disk: `*B 012 NAME`, locked or not, letter of the type, number of sectors, name -/
def readFileName33 (t : List Char) : Option (Bool × Option Char × Nat × List Char) := do
  let f := t.take 2
  let t ← expect [' '] (t.drop 2)
  let (num, t) ← number t
  return (f[0]? == some '*', f[1]?, num, ← expect [' '] t)

/-- the words of a text -/
def textWords : List Char → List (List Char)
  | [] => [[]]
  | c :: r =>
    if c = ' ' then [] :: textWords r
    else match textWords r with
      | w :: ws => (c :: w) :: ws
      | [] => [[c]]

/-- the kilobytes a text speaks of: the number before the word `KB`, or before the word `MB` -/
def kilobytesIn : List (List Char) → Option Nat
  | w :: u :: r =>
    if u = "KB".toList then (if w.all Char.isDigit then some (valueOf 10 w) else none)
    else if u = "MB".toList then (if w.all Char.isDigit then some (1024 * valueOf 10 w) else none)
    else kilobytesIn (u :: r)
  | _ => none

/-- date and time: `31/12/99 23:59:58` -/
def readStamp (t : List Char) : Option (List Nat × List Char) := do
  let (s, t) ← lastDec t
  let t ← endsIn ":".toList t
  let (mi, t) ← lastDec t
  let t ← endsIn ":".toList t
  let (h, t) ← lastDec t
  let t ← endsIn " ".toList t
  let (y, t) ← lastDec t
  let t ← endsIn "/".toList t
  let (mo, t) ← lastDec t
  let t ← endsIn "/".toList t
  let (d, t) ← lastDec t
  return ([d, mo, y, h, mi, s], t)

/-- what the line of a SpartaDOS file says: name, length, first map sector, date and time, and the number of bytes shown; or name, date and time of a file without bytes -/
inductive SpartaSaid
  | file (name : List Char) (length map : Nat) (stamp : List Nat) (count : Nat)
  | nothing (name : List Char) (stamp : List Nat)
deriving DecidableEq, Repr

/-- `NAME.EXT 300@27 31/12/99 23:59:58 ($12c bytes)` -/
def readSpartaFile (t : List Char) : Option SpartaSaid := do
  let t ← endsIn " bytes)".toList t
  let (count, t) ← lastHex t
  let t ← endsIn " ($".toList t
  let (stamp, t) ← readStamp t
  let t ← endsIn " ".toList t
  let (map, t) ← lastDec t
  let t ← endsIn "@".toList t
  let (length, t) ← lastDec t
  return .file (← endsIn " ".toList t) length map stamp count

/-- `NAME.EXT (empty file) 31/12/99 23:59:58` -/
def readSpartaNothing (t : List Char) : Option SpartaSaid := do
  let (stamp, t) ← readStamp t
  return .nothing (← endsIn " (empty file) ".toList t) stamp

def readSpartaLine (t : List Char) : Option SpartaSaid := (readSpartaFile t).or (readSpartaNothing t)

end Atr
