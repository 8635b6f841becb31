import Verif.Spec.SpartaDir
import Verif.Spec.AtariOpen
import Verif.Spec.Dos33Open
/-!
# Reading printed listings

A reader for the lines of a listing that knows nothing of how they are made: it takes numbers as far as digits go and columns by their width.
-/
namespace Atr

/-- the value of a digit -/
def digitVal (c : Char) : Nat := ("0123456789abcdef".toList).idxOf c

/-- the value of a row of digits -/
def valueOf (base : Nat) (t : List Char) : Nat := t.foldl (fun a c => base * a + digitVal c) 0

/-- a number at the beginning of a text, and the rest -/
def number (t : List Char) : Option (Nat × List Char) :=
  let d := t.takeWhile Char.isDigit
  if d = [] then none else some (valueOf 10 d, t.dropWhile Char.isDigit)

/-- a number that may have a minus sign -/
def signed (t : List Char) : Option (Int × List Char) :=
  match t with
  | '-' :: t => (number t).map fun x => (-(x.1 : Int), x.2)
  | t => (number t).map fun x => ((x.1 : Int), x.2)

/-- the text begins with `p`; the rest -/
def expect (p t : List Char) : Option (List Char) := if p.isPrefixOf t then some (t.drop p.length) else none

/-- without the blanks at the end -/
def noBlanks (t : List Char) : List Char := (t.reverse.dropWhile (· == ' ')).reverse

/-- a column of `w` characters, without the blanks that fill it, and the rest -/
def column (w : Nat) (t : List Char) : Option (List Char × List Char) :=
  if t.length < w then none else some (noBlanks (t.take w), t.drop w)

/-- the number of the entry, as far as the flags -/
def readHead (t : List Char) : Option (Nat × List Char) := do
  let t ← expect "File #".toList t
  let (n, t) ← number t
  let t ← expect ['('] (t.dropWhile (· == ' '))
  return (n, t)

/-- one line of the listing of an Atari DOS disk -/
structure AtariLine where
  number : Nat
  outputOpen : Bool
  dos2 : Bool
  mydos : Bool
  used : Bool
  deleted : Bool
  locked : Bool
  start : Nat
  name : List Char
  ext : List Char
  sectors : Nat
deriving DecidableEq

/-- reads such a line; what follows it is left -/
def readAtari (t : List Char) : Option (AtariLine × List Char) := do
  let (n, t) ← readHead t
  let f := t.take 6
  let t ← expect [')', ' '] (t.drop 6)
  let (start, t) ← number t
  let t ← expect [' '] t
  let (name, t) ← column 8 t
  let (ext, t) ← column 3 t
  let t ← expect [' ', ' '] t
  let (size, t) ← number t
  return (⟨n, f[0]? == some 'o', f[1]? == some '2', f[2]? == some 'm', f[3]? == some 'u', f[4]? == some 'd', f[5]? == some '*', start, name, ext, size⟩, t)

/-- one line of the listing of a DOS 3.3 disk -/
structure Dos33Line where
  number : Nat
  locked : Bool
  kind : Option Char
  sectors : Nat
  name : List Char
  track : Nat
  sector : Nat
deriving DecidableEq

/-- reads such a line -/
def readDos33 (t : List Char) : Option (Dos33Line × List Char) := do
  let (n, t) ← readHead t
  let f := t.take 2
  let t ← expect [')', ' '] (t.drop 2)
  let (size, t) ← number t
  let t ← expect [' '] t
  let (name, t) ← column 30 t
  let t ← expect [' '] t
  let (track, t) ← number t
  let t ← expect [' '] t
  let (sector, t) ← number t
  return (⟨n, f[0]? == some '*', f[1]?, size, name, track, sector⟩, t)

/-- one line of the listing of a SpartaDOS disk -/
structure SpartaLine where
  number : Nat
  outputOpen : Bool
  dir : Bool
  used : Bool
  deleted : Bool
  locked : Bool
  map : Nat
  name : List Char
  ext : List Char
  length : Int
  stamp : List Nat
deriving DecidableEq

/-- reads such a line -/
def readSparta (t : List Char) : Option (SpartaLine × List Char) := do
  let (n, t) ← readHead t
  let f := t.take 5
  let t ← expect [' '] (t.drop 5)
  let (map, t) ← number t
  let t ← expect [')', ' '] t
  let (name, t) ← column 8 t
  let (ext, t) ← column 3 t
  let t ← expect [' ', ' '] t
  let (len, t) ← signed (t.dropWhile (· == ' '))
  let t ← expect [' ', ' '] t
  let (a, t) ← number t
  let t ← expect ['/'] t
  let (b, t) ← number t
  let t ← expect ['/'] t
  let (c, t) ← number t
  let t ← expect [' '] t
  let (d, t) ← number t
  let t ← expect [':'] t
  let (e, t) ← number t
  let t ← expect [':'] t
  let (g, t) ← number t
  return (⟨n, f[0]? == some 'o', f[1]? == some 'D', f[2]? == some 'u', f[3]? == some 'd', f[4]? == some '*', map, name, ext, len, [a, b, c, d, e, g]⟩, t)

/-- a checksum of eight digits after two blanks, and nothing else -/
def readSum (t : List Char) : Option Nat := do
  let t ← expect [' ', ' '] t
  if t.length = 8 then some (valueOf 16 t) else none

/-- a line of `crc`: the last eight characters are the checksum, what is before the colon and blank before them is the name -/
def readCrc (t : List Char) : Option (List Char × Nat) :=
  let n := t.length - 10
  if (t.drop n).take 2 = [':', ' '] then some (t.take n, valueOf 16 (t.drop (n + 2))) else none

/-- the lines of a text: as many as there are newlines -/
def linesOf (t : List Char) : List (List Char) := go [] t
where
  /-- `acc` is the line so far, reversed -/
  go (acc : List Char) : List Char → List (List Char)
    | [] => if acc = [] then [] else [acc.reverse]
    | c :: t => if c = '\n' then acc.reverse :: go [] t else go (c :: acc) t

/-! ### what the lines say -/

/-- bytes as code points -/
def chars (b : Bytes) : List Char := b.map fun c => Char.ofNat c.toNat

/-- the 16 bytes of entry `i` of an Atari directory -/
def atariEntry (dir : Bytes) (i : Nat) : Bytes := slice dir (16 * i) (16 * i + 16)

/-- the numbers of the files of an Atari directory: the entries in use (flag bit 6) before the first one with flag byte 0 -/
def atariFiles (dir : Bytes) : List Nat :=
  ((List.range (dir.length / 16)).takeWhile fun i => (atariEntry dir i).getD 0 0 ≠ 0).filter fun i => statusBit (atariEntry dir i) 6

/-- what the entry says: flag, number of sectors, first sector, name, extension -/
def atariLineOf (dir : Bytes) (i : Nat) : AtariLine :=
  let e := atariEntry dir i
  { number := i, outputOpen := statusBit e 0, dos2 := statusBit e 1, mydos := statusBit e 2, used := statusBit e 6, deleted := statusBit e 7,
    locked := statusBit e 5, start := wordAt e 3, name := chars (trimmed (slice e 5 13)), ext := chars (trimmed (slice e 13 16)), sectors := wordAt e 1 }

/-- the letter of a DOS 3.3 file type -/
def kindOf33 (t : Nat) : Char :=
  (([(0, 'T'), (1, 'I'), (2, 'A'), (4, 'B'), (8, 'S'), (16, 'R'), (32, 'a'), (64, 'b')] : List (Nat × Char)).lookup t).getD '?'

/-- what the entry at `p`, the `i`-th one of the catalog, says; the name without blanks at the end -/
def dos33LineOf (b : Bytes) (x : Nat × Nat) : Dos33Line :=
  let f := fileInfo33 b x.1
  { number := x.2, locked := f.locked, kind := some (kindOf33 f.ftype), sectors := f.sectors, name := noBlanks (chars f.name),
    track := byteOf b x.1, sector := byteOf b (x.1 + 1) }

/-- what a record of a SpartaDOS directory says -/
def spartaLineOf (x : SInfo × Nat) : SpartaLine :=
  { number := x.2, outputOpen := x.1.openForOutput, dir := x.1.isDir, used := x.1.inUse, deleted := x.1.deleted, locked := x.1.locked, map := x.1.start,
    name := chars x.1.name, ext := chars x.1.ext, length := x.1.length, stamp := x.1.stamp.map UInt8.toNat }

end Atr
