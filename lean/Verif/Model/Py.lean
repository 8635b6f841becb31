/-!
# Python / NumPy primitives

Bytes are lists of `UInt8`.  `UInt8.ofNat` is the wrapping store of NumPy < 1.23, `UInt8.toNat` the load.
Exceptions are values.  A procedure that mutates state and may raise returns the state at the time of the
exception as well (`Proc`).
-/
namespace Atr

/-- Exception classes that matter: the `AtrError` family (`/repo/atrcopy/errors.py:1-75`), the builtin Python
exceptions the code can raise, and `hang` for a Python loop that never terminates. -/
inductive Err
  | invalidAtrHeader | invalidCartHeader | invalidDiskImage | unsupportedDiskImage
  | invalidDirent | lastDirent | invalidFile | fileNumberMismatch | byteNotInFile
  | invalidBinaryFile | invalidSegmentParser | noSpaceInDirectory | notEnoughSpace
  | fileNotFound | unsupportedContainer | invalidContainer | atrError
  -- builtin exceptions: not caught by `except errors.AtrError`
  | indexError | valueError | typeError | nameError | zeroDivision | attributeError | overflowError | ioError
  | hang
deriving DecidableEq, Repr, Inhabited

/-- Does the class derive from `AtrError`?  errors.py:1-75 -/
def Err.isAtr : Err → Bool
  | .indexError | .valueError | .typeError | .nameError | .zeroDivision | .attributeError
  | .overflowError | .ioError | .hang => false
  | _ => true

/-- Does the class derive from `InvalidFile`?  errors.py:38-51 -/
def Err.isInvalidFile : Err → Bool
  | .invalidFile | .fileNumberMismatch | .byteNotInFile | .invalidBinaryFile => true
  | _ => false

deriving instance DecidableEq for Except

abbrev Bytes := List UInt8

/-- `a[i:j]` for non-negative `i`, `j` (bounds are clipped). -/
def slice {α : Type} (a : List α) (i j : Nat) : List α := (a.take j).drop i

/-- Overwrite `a` from position `i` with `v` (no length change when `i + v.length ≤ a.length`). -/
def splice {α : Type} (a : List α) (i : Nat) (v : List α) : List α :=
  a.take i ++ v ++ a.drop (i + v.length)

/-- NumPy `a[i:j] = v` for a sequence `v`: the clipped slice must have the length of `v`, or `v` has length one
and is broadcast; otherwise `ValueError`. -/
def assignSlice (a : Bytes) (i j : Nat) (v : Bytes) : Except Err Bytes :=
  let n := min j a.length - min i a.length
  if v.length = n then .ok (splice a i v)
  else if v.length = 1 then .ok (splice a i (List.replicate n (v.headD 0)))
  else .error .valueError

/-- NumPy `a[i:j] = x` for a scalar `x`. -/
def fillSlice (a : Bytes) (i j : Nat) (x : UInt8) : Bytes :=
  splice a i (List.replicate (min j a.length - min i a.length) x)

/-- `[l[0:n], l[n:2n], …]`, the last piece may be shorter; `fuel` bounds the number of pieces. -/
def chunksFuel {α : Type} (n : Nat) : Nat → List α → List (List α)
  | 0, _ => []
  | _ + 1, [] => []
  | fuel + 1, l => l.take n :: chunksFuel n fuel (l.drop n)

/-- Consecutive pieces of length `n` (for `n > 0`). -/
def chunks {α : Type} (n : Nat) (l : List α) : List (List α) := chunksFuel n l.length l

/-- little-endian `<u2` load -/
def le16 (lo hi : UInt8) : Nat := lo.toNat + 256 * hi.toNat

/-- little-endian `<u2` store (wraps modulo 65536) -/
def enc16 (n : Nat) : Bytes := [UInt8.ofNat n, UInt8.ofNat (n / 256)]

/-- little-endian `<u4` load -/
def le32 (a b c d : UInt8) : Nat := a.toNat + 256 * b.toNat + 65536 * c.toNat + 16777216 * d.toNat

/-- little-endian `<u4` store (wraps modulo 2^32) -/
def enc32 (n : Nat) : Bytes :=
  [UInt8.ofNat n, UInt8.ofNat (n / 256), UInt8.ofNat (n / 65536), UInt8.ofNat (n / 16777216)]

/-- Whitespace removed by `bytes.rstrip()`: space, \t, \n, \v, \f, \r. -/
def isWs (b : UInt8) : Bool := b == 32 || (9 ≤ b && b ≤ 13)

/-- `bytes.rstrip()` -/
def rstripWs (l : Bytes) : Bytes := (l.reverse.dropWhile isWs).reverse

/-- Reading a NumPy `S` field drops trailing NULs. -/
def rstripNul (l : Bytes) : Bytes := (l.reverse.dropWhile (· == 0)).reverse

/-- Writing a NumPy `S<n>` field: truncate to `n`, pad with NULs. -/
def encS (n : Nat) (l : Bytes) : Bytes := l.take n ++ List.replicate (n - l.length) 0

/-- `b'%-<n>s' % l` -/
def padRight (n : Nat) (l : Bytes) : Bytes := l ++ List.replicate (n - l.length) 32

/-- `np.unpackbits` of one byte: most significant bit first. -/
def unpackByte (b : UInt8) : List Bool := (List.range 8).map fun i => b.toNat.testBit (7 - i)

/-- `np.unpackbits` -/
def unpackbits (b : Bytes) : List Bool := b.flatMap unpackByte

/-- one byte from (at most) eight bits, missing bits are zero -/
def packByte (l : List Bool) : UInt8 :=
  UInt8.ofNat ((List.range 8).foldl (fun acc i => 2 * acc + (l.getD i false).toNat) 0)

/-- `np.packbits` -/
def packbits (l : List Bool) : Bytes := (chunks 8 l).map packByte

/-- A procedure on a mutable state: the state survives an exception. -/
abbrev Proc (σ α : Type) := σ → Except Err α × σ

end Atr
