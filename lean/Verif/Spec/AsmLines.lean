import Verif.Spec.SegLines
/-!
# Reading what `assemble -v` prints about a segment

`0600 - 0680, size=0080 ($80 bytes @ 0600 - 0680)`, without `@ 0600` for addresses that are not positive.
-/
namespace Atr

/-- a hexadecimal number behind `sep`; it may have a minus sign -/
def lastSigned (sep t : List Char) : Option (Int × List Char) := do
  let (n, t) ← lastHex t
  match endsIn sep t with
  | some t => return ((n : Int), t)
  | none => return (-(n : Int), ← endsIn (sep ++ ['-']) t)

/-- the address in brackets, if there is one -/
def lastPlace (t : List Char) : Option (Option Nat × List Char) :=
  match endsIn " bytes".toList t with
  | some t => some (none, t)
  | none => do
    let (o, t) ← lastHex t
    return (some o, ← endsIn " bytes @ ".toList t)

/-- first address, first address behind it, length and the address in brackets; numbers that are said twice must be the same -/
def readAsmLine (t : List Char) : Option (Int × Int × Nat × Option Nat) := do
  let (stop, t) ← lastSigned " - ".toList (← endsIn ")".toList t)
  let (place, t) ← lastPlace t
  let (n, t) ← lastHex t
  let (n', t) ← lastHex (← endsIn " ($".toList t)
  let (stop', t) ← lastSigned " - ".toList (← endsIn ", size=".toList t)
  let (start, t) ← lastSigned " ".toList (' ' :: t)
  if t = [] ∧ n = n' ∧ stop = stop' then some (start, stop, n, place) else none

end Atr
