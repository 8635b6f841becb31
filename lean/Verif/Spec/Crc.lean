import Verif.Model.Py
/-!
# CRC-32, as polynomials

A file is read as the coefficients of a polynomial over the field of two elements, the low bit of the first byte being the coefficient of the highest
power.  The polynomials are reduced by x³² + x²⁶ + x²³ + x²² + x¹⁶ + x¹² + x¹¹ + x¹⁰ + x⁸ + x⁷ + x⁵ + x⁴ + x² + x + 1.
-/
namespace Atr

/-- the bits of a byte, lowest first -/
def bitsOf (b : UInt8) : List Bool := (List.range 8).map b.toNat.testBit

/-- the exponents below 32 of the generator -/
def crcExponents : List Nat := [26, 23, 22, 16, 12, 11, 10, 8, 7, 5, 4, 2, 1, 0]

/-- multiplication by x of a residue (bit `k` is the coefficient of x to the power `k`) -/
def timesX (p : Nat → Bool) : Nat → Bool := fun k =>
  (k < 32 && 0 < k && p (k - 1)) ^^ (p 31 && crcExponents.contains k)

/-- the residue of x³² times the polynomial with these coefficients (highest first), after a residue `p` -/
def residue (p : Nat → Bool) : List Bool → Nat → Bool
  | [] => p
  | c :: cs => residue (timesX fun k => p k ^^ (k == 31 && c)) cs

end Atr
