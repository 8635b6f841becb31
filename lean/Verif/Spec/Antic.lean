import Verif.Spec.Cpu6502
/-!
# What the ANTIC display processor of the Atari shows

The display list instructions for blank lines, for text of 20 characters in a line (modes 6 and 7, normal width, standard character
set) and for the jump at the end.  Nothing here is taken from atrcopy.  Other instructions and scrolling are left out.
-/
namespace Atr

/-- Part of the picture: scan lines without contents, or a line of text of some height.  Every character has its code (that of ASCII)
and the number of the playfield colour it is drawn with. -/
inductive Band
  | blank (scanLines : Nat)
  | text (scanLines : Nat) (chars : List (Nat × Nat))
deriving DecidableEq, Repr

/-- The display list counter has ten bits that count; the upper six stay. -/
def dlNext (p k : Nat) : Nat := p / 1024 * 1024 + (p + k) % 1024

/-- The memory scan counter has twelve bits that count. -/
def scanNext (p k : Nat) : Nat := p / 4096 * 4096 + (p + k) % 4096

/-- A byte of screen memory in the modes 6 and 7: six bits for the character (the first 64 of the character set start with the blank),
two for the colour. -/
def anticChar (b : UInt8) : Nat × Nat := (b.toNat % 64 + 32, b.toNat / 64)

/-- one line of 20 characters -/
def anticLine (m : Nat → UInt8) (scan : Nat) : List (Nat × Nat) := (List.range 20).map fun k => anticChar (m (scanNext scan k))

/-- The picture: what a display list at `p` shows with the memory scan counter at `scan`, up to the jump (0x41) that waits for the end
of the picture.  The jump has to lead to `top`, where the next picture starts.  `none`: other instructions. -/
def antic (m : Nat → UInt8) (top : Nat) : Nat → Nat → Nat → Option (List Band)
  | 0, _, _ => none
  | fuel + 1, p, scan =>
    let op := (m p).toNat
    if op = 0x41 then
      if word (m (dlNext p 1)) (m (dlNext p 2)) = top then some [] else none
    else if op % 16 = 0 ∧ op < 128 then (antic m top fuel (dlNext p 1) scan).map fun l => .blank (op / 16 + 1) :: l
    else if op % 64 = 6 ∨ op % 64 = 7 then
      let height := if op % 64 = 6 then 8 else 16
      if op < 64 then (antic m top fuel (dlNext p 1) (scanNext scan 20)).map fun l => .text height (anticLine m scan) :: l
      else if op < 128 then
        let scan := word (m (dlNext p 1)) (m (dlNext p 2))
        (antic m top fuel (dlNext p 3) (scanNext scan 20)).map fun l => .text height (anticLine m scan) :: l
      else none
    else none

/-- The picture for the display list in the memory of a computer: the operating system keeps its address in 0x230. -/
def picture (m : Nat → UInt8) : Option (List Band) := antic m (word (m 0x230) (m 0x231)) 1024 (word (m 0x230) (m 0x231)) 0

/-- a line of text in one colour, between blanks in colour 0 -/
def line (left : Nat) (color : Nat) (s : String) : List (Nat × Nat) :=
  List.replicate left (32, 0) ++ (s.toList.map fun c => (c.toNat, color)) ++ List.replicate (20 - left - s.length) (32, 0)

/-- C95: the picture while a boot disk loads -/
def loadScreen : List Band := [
  .blank 8, .blank 8, .blank 8, .blank 8, .blank 8,
  .text 8 (line 5 0 "LOADING..."),
  .blank 8,
  .text 16 (line 8 3 "DEMO"),
  .blank 8, .blank 8, .blank 8,
  .text 8 (line 8 0 "FROM"),
  .blank 8,
  .text 8 (line 3 1 "AN ATARI USER"),
  .blank 8,
  .text 8 (line 20 0 "")]

end Atr
