import Verif.Spec.Display
import Verif.Spec.Dos33Read
/-!
# Reading what `list -m` prints below an entry

Flags by name for Atari and SpartaDOS disks, sectors for DOS 3.3.
-/
namespace Atr

/-- the parts of a text that are separated by a comma and a blank; an empty text has none -/
def partsOf (t : List Char) : List (List Char) := if t = [] then [] else go [] t
where
  /-- `acc` is the part so far, reversed -/
  go (acc : List Char) : List Char → List (List Char)
    | [] => [acc.reverse]
    | ',' :: ' ' :: t => acc.reverse :: go [] t
    | c :: t => go (c :: acc) t

/-- the parts of what is between `p` and a closing bracket at the end -/
def readParts (p t : List Char) : Option (List (List Char)) := do
  let t ← expect p t
  if t.getLast? = some ']' then some (partsOf t.dropLast) else none

/-- reads the names of flags -/
def readFlags (t : List Char) : Option (List (List Char)) := readParts "flags=[".toList t

/-- the names of the flags that a line of an Atari disk shows -/
def AtariLine.flags (l : AtariLine) : List (List Char) :=
  (if l.outputOpen then ["OUT".toList] else []) ++ (if l.dos2 then ["DOS2".toList] else []) ++ (if l.mydos then ["MYDOS".toList] else []) ++
  (if l.used then ["IN_USE".toList] else []) ++ (if l.deleted then ["DEL".toList] else []) ++ (if l.locked then ["LOCK".toList] else [])

/-- the names of the flags that a line of a SpartaDOS disk shows -/
def SpartaLine.flags (l : SpartaLine) : List (List Char) :=
  (if l.outputOpen then ["OUT".toList] else []) ++ (if l.dir then ["DIR".toList] else []) ++
  (if l.used then ["IN_USE".toList] else []) ++ (if l.deleted then ["DEL".toList] else []) ++ (if l.locked then ["LOCK".toList] else [])

/-- a whole text that is a number -/
def wholeNumber (t : List Char) : Option Nat :=
  match number t with
  | some (n, []) => some n
  | _ => none

/-- reads the line with the data sectors -/
def readMap (t : List Char) : Option (List Nat) := do
  let l ← readParts "sector map: [".toList t
  l.mapM wholeNumber

/-- what is said about one sector of the track/sector list -/
structure ListLine where
  index : Nat
  sector : Nat
  next : Nat
  size : Nat
  used : Nat
deriving DecidableEq

/-- reads it -/
def readListLine (t : List Char) : Option ListLine := do
  let t ← expect " ".toList t
  let (i, t) ← number t
  let t ← expect ": sector=".toList t
  let (s, t) ← number t
  let t ← expect " next=".toList t
  let (n, t) ← number t
  let t ← expect " size=".toList t
  let (z, t) ← number t
  let t ← expect " used=".toList t
  let u ← wholeNumber t
  return ⟨i, s, n, z, u⟩

/-- The lines `L` say that the track/sector list is in the sectors `ts`, of which `s` is followed by `next s`, and the data in the sectors `ds`. -/
def SaysSectors (ts ds : List Nat) (next : Nat → Nat) (L : List (List Char)) : Prop :=
  L.length = ts.length + 1 ∧
  (∀ k s, ts[k]? = some s → ∃ l t, L[k]? = some l ∧ (if k = 0 then expect "track/sector list at: ".toList l else some l) = some t ∧
    readListLine t = some ⟨k, s, next s, 256, 256⟩) ∧
  L[ts.length]?.bind readMap = some ds

end Atr
