import Verif.Spec.Cpu6502
import Verif.Spec.Delivery
/-!
# What an Apple ][ does with the boot sector of Standard Delivery disks

The 6502 of `Spec/Cpu6502.lean` with a disk drive: the four phases of its stepper motor, and the three routines in ROM used by the boot
code (fstbt.py), and the switches of the display.  Nothing here is taken from atrcopy.  Left out: timing.
-/
namespace Atr

/-- The drive and its disk: slot number of the controller, the sectors by track and physical number, and what the routines in ROM leave
in registers and memory they need for themselves. -/
structure Apple where
  slot : Nat
  disk : Nat → Nat → Option Bytes
  after : Cpu → Cpu

/-- The stepper motor: the head is over half-track `h`, attracted by phase `h % 4`.  Switch `k` of the eight switches turns phase `k / 2`
off (even `k`) or on (odd `k`); a neighbouring phase moves the head by a half-track. -/
def stepHead (h k : Nat) : Nat :=
  if k % 2 = 0 then h
  else if k / 2 = (h + 1) % 4 then h + 1
  else if k / 2 = (h + 3) % 4 then h - 1
  else h

/-- The routine in the ROM of the controller (0xCn5C for slot n) that reads a sector: number in 0x3d, track in 0x41, page of the buffer
in 0x27.  The head has to be over the track.  The next page and the next number are left in 0x27 and 0x3d, the track in 0x40.  When the
number is now at least the byte at 0x800 the routine jumps to 0x801, with the number in A and the slot in X.  It uses page 3, 0x26,
0x2a, 0x3c and the stack. -/
def Apple.read (A : Apple) (c : Cpu) (h : Nat) : Option (Cpu × Nat) :=
  match A.disk (c.mem 0x41).toNat (c.mem 0x3d).toNat with
  | none => none
  | some d =>
    let page := (c.mem 0x27).toNat
    let m := fun p =>
      if p = 0x27 then c.mem 0x27 + 1
      else if p = 0x3d then c.mem 0x3d + 1
      else if p = 0x40 then c.mem 0x41
      else if p / 256 = page then d.getD (p % 256) 0
      else if p = 0x26 ∨ p = 0x2a ∨ p = 0x3c ∨ p / 256 = 3 ∨ (0x100 ≤ p ∧ p ≤ 0x100 + c.s.toNat) then (A.after c).mem p
      else c.mem p
    if h = 2 * (c.mem 0x41).toNat ∧ (m 0x800).toNat ≤ (c.mem 0x3d + 1).toNat then
      some ({ c with mem := m, a := c.mem 0x3d + 1, x := c.mem 0x2b, y := (A.after c).y, pc := 0x801, n := (A.after c).n, z := (A.after c).z, c := true }, h)
    else none

/-- reading one of the eight switches of the controller moves the head -/
def Apple.touch (A : Apple) (h a : Nat) : Nat :=
  if 0xc080 + 16 * A.slot ≤ a ∧ a < 0xc088 + 16 * A.slot then stepHead h (a - (0xc080 + 16 * A.slot)) else h

/-- where the head is after an instruction (only `LDA` with an address plus Y is used for the switches) -/
def Apple.head (A : Apple) (c : Cpu) (h : Nat) : Ins6502 → Nat
  | .ld _ (.absY a) => A.touch h (c.addr (.absY a))
  | _ => h

/-- the routine at 0xf87b divides A by sixteen -/
def Apple.shift (A : Apple) (c : Cpu) : Cpu :=
  Cpu.ret { c with a := c.a >>> 4, n := (A.after c).n, z := (A.after c).z, c := (A.after c).c }

/-- the routine at 0xfca8 (`WAIT`) leaves 0 in A and sets the carry; it uses one byte of the stack -/
def Apple.wait (A : Apple) (c : Cpu) : Cpu :=
  Cpu.ret { c with a := 0, n := false, z := true, c := true, mem := poke c.mem (0x100 + c.s.toNat) ((A.after c).mem (0x100 + c.s.toNat)) }

/-- The eight switches of the display from 0xc050 on: graphics or text, the whole screen or four lines of text, page 1 or 2, low or high
resolution.  Any access uses them; only `STA` is described. -/
def softSwitch : Ins6502 → Option Nat
  | .st _ (.abs a) => if 0xc050 ≤ a ∧ a < 0xc058 then some (a - 0xc050) else none
  | _ => none

/-- The positions of the four pairs of switches are kept in cells behind the last address of the processor: 0 for the first of a pair, 1
for the second. -/
def flipSwitch (k : Nat) (c : Cpu) : Cpu := { c with mem := poke c.mem (0x10000 + k / 2) (UInt8.ofNat (k % 2)) }

/-- the whole screen shows a page of graphics in high resolution: page 1 (at 0x2000) for `v` = 0, page 2 (at 0x4000) for `v` = 1 -/
structure ShowsHires (m : Nat → UInt8) (v : UInt8) : Prop where
  graphics : m 0x10000 = 0
  whole : m 0x10001 = 0
  page : m 0x10002 = v
  high : m 0x10003 = 1

/-- one step: the three routines in ROM, or an instruction -/
def Apple.step (A : Apple) (t : Cpu × Nat) : Option (Cpu × Nat) :=
  if t.1.pc = 0xf87b then some (A.shift t.1, t.2)
  else if t.1.pc = 0xfca8 then some (A.wait t.1, t.2)
  else if t.1.pc = 0xc05c + 256 * A.slot then A.read t.1 t.2
  else match decode6502 t.1.mem t.1.pc with
    | none => none
    | some (i, len) =>
      let c := { t.1 with pc := (t.1.pc + len) % 0x10000 }
      some (match softSwitch i with
        | none => c.exec i
        | some k => flipSwitch k (c.exec i), A.head c t.2 i)

inductive Apple.Runs (A : Apple) : Cpu × Nat → Cpu × Nat → Prop
  | refl (c) : Runs A c c
  | step {c d e} : A.step c = some d → Runs A d e → Runs A c e

/-- The ROM has read the first sector of track 0 to page 8 and jumps to 0x801. -/
structure AppleBooted (A : Apple) (c : Cpu) : Prop where
  pc : c.pc = 0x801
  a : c.a = 1
  x : c.x.toNat = 16 * A.slot
  slot : (c.mem 0x2b).toNat = 16 * A.slot
  track : c.mem 0x40 = 0 ∧ c.mem 0x41 = 0
  loaded : ∃ d, A.disk 0 0 = some d ∧ ∀ i < 256, c.mem (0x800 + i) = d.getD i 0

/-- a disk image in DOS 3.3 order: 35 tracks of 16 sectors -/
def dskDisk (b : Bytes) (track phys : Nat) : Option Bytes :=
  if track < 35 ∧ phys < 16 ∧ b.length = 143360 then some (dskSector b (16 * track + dosSkew.getD phys 0)) else none

end Atr
