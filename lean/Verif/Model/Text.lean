import Verif.Model.Py
/-!
# `text_to_int`: utils.py:43-60

Text is a list of characters.  Python's `int(text, base)` also takes the decimal digits and spaces of other scripts; the
model covers ASCII.
-/
namespace Atr

/-- characters `int` strips at both ends -/
def isPySpace (c : Char) : Bool := c.toNat == 32 || (9 ≤ c.toNat && c.toNat ≤ 13) || (28 ≤ c.toNat && c.toNat ≤ 31)

/-- value of an ASCII digit or letter -/
def digitOf (c : Char) : Option Nat :=
  if 48 ≤ c.toNat ∧ c.toNat ≤ 57 then some (c.toNat - 48)
  else if 97 ≤ c.toNat ∧ c.toNat ≤ 122 then some (c.toNat - 97 + 10)
  else if 65 ≤ c.toNat ∧ c.toNat ≤ 90 then some (c.toNat - 65 + 10)
  else none

/-- the digits of `int(text, base)`: single underscores may stand between digits; `prev` says that the last character was one -/
def pyDigits (base : Nat) : Bool → Nat → List Char → Option Nat
  | prev, acc, [] => if prev then none else some acc
  | prev, acc, c :: cs =>
    if c = '_' then if prev then none else pyDigits base true acc cs
    else match digitOf c with
      | none => none
      | some d => if d < base then pyDigits base false (acc * base + d) cs else none

/-- strip spaces at both ends -/
def pyStrip (s : List Char) : List Char := ((s.dropWhile isPySpace).reverse.dropWhile isPySpace).reverse

/-- the optional `0x` (base 16) or `0b` (base 2) with an optional underscore behind it -/
def pyPrefix (base : Nat) : List Char → List Char
  | '0' :: c :: cs =>
    if (base = 16 ∧ (c = 'x' ∨ c = 'X')) ∨ (base = 2 ∧ (c = 'b' ∨ c = 'B')) then
      match cs with
      | '_' :: cs => cs
      | cs => cs
    else '0' :: c :: cs
  | s => s

/-- digits after sign and prefix -/
def pyMagnitude (base : Nat) (s : List Char) : Option Nat :=
  match pyPrefix base s with
  | [] => none
  | c :: cs => if c = '_' then none else pyDigits base false 0 (c :: cs)

/-- an optional sign and the digits -/
def pySigned (base : Nat) (s : List Char) : Option Int :=
  match s with
  | '-' :: s => (pyMagnitude base s).map fun (n : Nat) => -(n : Int)
  | '+' :: s => (pyMagnitude base s).map fun (n : Nat) => (n : Int)
  | s => (pyMagnitude base s).map fun (n : Nat) => (n : Int)

/-- Python's `int(text, base)` for bases 2, 10, 16 -/
def pyInt (base : Nat) (text : List Char) : Except Err Int :=
  match pySigned base (pyStrip text) with
  | some v => .ok v
  | none => .error .valueError

/-- `text_to_int(text, default_base)`, utils.py:43-60; `dec` says that the default base is "dec" -/
def textToInt (text : List Char) (dec : Bool) : Except Err Int :=
  match text with
  | '0' :: 'x' :: s => pyInt 16 s
  | '$' :: s => pyInt 16 s
  | '#' :: s => pyInt 10 s
  | '%' :: s => pyInt 2 s
  | s => if dec then pyInt 10 s else pyInt 16 s

end Atr
