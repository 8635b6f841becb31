import Verif.Model.Program
/-!
# Files given to `assemble` and `boot` with an address, and the endings of names
-/
namespace Atr

/-- the digits and their values -/
def hexDigits : List (Char × Nat) := [('0', 0), ('1', 1), ('2', 2), ('3', 3), ('4', 4), ('5', 5), ('6', 6), ('7', 7), ('8', 8), ('9', 9), ('a', 10), ('b', 11),
  ('c', 12), ('d', 13), ('e', 14), ('f', 15), ('A', 10), ('B', 11), ('C', 12), ('D', 13), ('E', 14), ('F', 15)]

/-- the value of digits in some base -/
def digitsValue (base : Nat) : List Nat → Nat
  | [] => 0
  | d :: l => d * base ^ l.length + digitsValue base l

/-- the text `t` consists of digits of the number `n` -/
def Digits (base : Nat) (n : Nat) (t : List Char) : Prop :=
  ∃ l : List (Char × Nat), l ≠ [] ∧ (∀ p ∈ l, p ∈ hexDigits ∧ p.2 < base) ∧ t = l.map (·.1) ∧ n = digitsValue base (l.map (·.2))

/-- the ways to type an address -/
inductive Typed (n : Nat) : List Char → Prop
  | hex {t} : Digits 16 n t → Typed n t
  | dollar {t} : Digits 16 n t → Typed n ('$' :: t)
  | zeroX {t} : Digits 16 n t → Typed n ('0' :: 'x' :: t)
  | decimal {t} : Digits 10 n t → Typed n ('#' :: t)
  | binary {t} : Digits 2 n t → Typed n ('%' :: t)

/-- the run address: nothing typed, or a number -/
inductive RunTyped : Option Nat → List Char → Prop
  | none : RunTyped none []
  | some {n t} : Typed n t → RunTyped (some n) t

/-- a file with the address it is to be loaded to, as typed and as a number -/
structure Given where
  name : List Char
  text : List Char
  addr : Nat
  data : Bytes

/-- what is typed on the command line -/
def Given.arg (g : Given) : List Char := g.name ++ '@' :: g.text

/-- the part of the program it stands for -/
def Given.seg (g : Given) : Seg := { origin := g.addr, data := g.data }

/-- the file is there, and its name does not look like a file with a range of bytes -/
structure Given.Ok (h : Host) (g : Given) : Prop where
  typed : Typed g.addr g.text
  brackets : '[' ∉ g.name ∨ ']' ∉ g.name
  latin : ∀ c ∈ g.name, c.toNat < 256
  there : h.files.get (g.name.map fun c => UInt8.ofNat c.toNat) = some g.data

/-- the byte is the letter, small or capital; other characters are themselves -/
def CaseOf (b : UInt8) (c : Char) : Prop := b.toNat = c.toNat ∨ (97 ≤ c.toNat ∧ c.toNat ≤ 122 ∧ b.toNat + 32 = c.toNat)

/-- two lists of the same length, related item by item -/
def Spells (R : UInt8 → Char → Prop) : Bytes → List Char → Prop
  | [], [] => True
  | b :: s, c :: e => R b c ∧ Spells R s e
  | _, _ => False

/-- the name ends with this text, in small or capital letters -/
def HasEnding (e : List Char) (name : Bytes) : Prop := ∃ pre s, name = pre ++ s ∧ Spells CaseOf s e

end Atr
