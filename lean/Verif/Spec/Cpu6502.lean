import Verif.Spec.Xex
/-!
# What a 6502 does with the boot code of KBoot disks

The instructions of the MOS 6502 that occur in the boot code of KBoot disks (`xexboot_header`, kboot.py:85) and of Apple boot disks
(fstbt.py, see `Spec/Apple2.lean`), the call `SIOV` of the Atari operating system that reads a sector, and what loading an executable
means.  Nothing here is taken from atrcopy: the instruction set is that of
the MOS 6502, the call is that of the Atari OS.  Left out: interrupts, decimal mode (the OS boots with it off), the overflow flag
(no instruction here reads it), and input/output registers, which are treated as memory.
-/
namespace Atr

/-- registers, the flags in use, and memory -/
structure Cpu where
  a : UInt8
  x : UInt8
  y : UInt8
  s : UInt8
  n : Bool
  z : Bool
  c : Bool
  pc : Nat
  mem : Nat → UInt8

inductive Reg6502 | a | x | y
inductive Flag6502 | n | z | c

/-- where an operand is: an immediate byte, an address (in page 0 too), an address plus X or Y, a pointer in page 0 plus Y -/
inductive Mode6502
  | imm (v : UInt8)
  | abs (a : Nat)
  | absX (a : Nat)
  | absY (a : Nat)
  | indY (a : Nat)

inductive Ins6502
  | ld (r : Reg6502) (m : Mode6502)
  | st (r : Reg6502) (m : Mode6502)
  | cmp (r : Reg6502) (m : Mode6502)
  | and (m : Mode6502)
  | or (m : Mode6502)
  | sbc (m : Mode6502)
  | inc (a : Nat)
  | dec (a : Nat)
  | inx | iny | dex | tax | tay | txa
  | bit (m : Mode6502)
  | asl (a : Nat)
  | rol
  | clc
  | pha
  | br (f : Flag6502) (v : Bool) (target : Nat)
  | jsr (a : Nat)
  | jmp (a : Nat)
  | jmpInd (a : Nat)
  | rts

/-- a 16-bit value from its two bytes -/
def word (lo hi : UInt8) : Nat := lo.toNat + 256 * hi.toNat

/-- target of a branch at `pc`: a signed byte after the two bytes of the instruction -/
def branchTo (pc : Nat) (off : UInt8) : Nat := (pc + 2 + off.toNat + (if off.toNat < 128 then 0 else 0xff00)) % 0x10000

/-- the instruction at `pc` with its length -/
def decode6502 (m : Nat → UInt8) (pc : Nat) : Option (Ins6502 × Nat) :=
  let op := m pc
  let lo := m ((pc + 1) % 0x10000)
  let hi := m ((pc + 2) % 0x10000)
  let two (i : Ins6502) := some (i, 2)
  let three (i : Ins6502) := some (i, 3)
  if op = 0x0d then three (.or (.abs (word lo hi)))
  else if op = 0x10 then two (.br .n false (branchTo pc lo))
  else if op = 0x20 then three (.jsr (word lo hi))
  else if op = 0x25 then two (.and (.abs lo.toNat))
  else if op = 0x4c then three (.jmp (word lo hi))
  else if op = 0x60 then some (.rts, 1)
  else if op = 0x6c then three (.jmpInd (word lo hi))
  else if op = 0x84 then two (.st .y (.abs lo.toNat))
  else if op = 0x85 then two (.st .a (.abs lo.toNat))
  else if op = 0x86 then two (.st .x (.abs lo.toNat))
  else if op = 0x8c then three (.st .y (.abs (word lo hi)))
  else if op = 0x8d then three (.st .a (.abs (word lo hi)))
  else if op = 0x90 then two (.br .c false (branchTo pc lo))
  else if op = 0x91 then two (.st .a (.indY lo.toNat))
  else if op = 0xa0 then two (.ld .y (.imm lo))
  else if op = 0xa2 then two (.ld .x (.imm lo))
  else if op = 0xa5 then two (.ld .a (.abs lo.toNat))
  else if op = 0xa6 then two (.ld .x (.abs lo.toNat))
  else if op = 0xa9 then two (.ld .a (.imm lo))
  else if op = 0xaa then some (.tax, 1)
  else if op = 0xad then three (.ld .a (.abs (word lo hi)))
  else if op = 0xb0 then two (.br .c true (branchTo pc lo))
  else if op = 0xbd then three (.ld .a (.absX (word lo hi)))
  else if op = 0xc5 then two (.cmp .a (.abs lo.toNat))
  else if op = 0xc8 then some (.iny, 1)
  else if op = 0xc9 then two (.cmp .a (.imm lo))
  else if op = 0xca then some (.dex, 1)
  else if op = 0xce then three (.dec (word lo hi))
  else if op = 0xd0 then two (.br .z false (branchTo pc lo))
  else if op = 0xe0 then two (.cmp .x (.imm lo))
  else if op = 0xe5 then two (.sbc (.abs lo.toNat))
  else if op = 0xe6 then two (.inc lo.toNat)
  else if op = 0xe8 then some (.inx, 1)
  else if op = 0xee then three (.inc (word lo hi))
  else if op = 0xf0 then two (.br .z true (branchTo pc lo))
  -- only in the Apple loader
  else if op = 0x05 then two (.or (.abs lo.toNat))
  else if op = 0x06 then two (.asl lo.toNat)
  else if op = 0x09 then two (.or (.imm lo))
  else if op = 0x18 then some (.clc, 1)
  else if op = 0x24 then two (.bit (.abs lo.toNat))
  else if op = 0x29 then two (.and (.imm lo))
  else if op = 0x2a then some (.rol, 1)
  else if op = 0x2c then three (.bit (.abs (word lo hi)))
  else if op = 0x48 then some (.pha, 1)
  else if op = 0x8a then some (.txa, 1)
  else if op = 0xa8 then some (.tay, 1)
  else if op = 0xb9 then three (.ld .a (.absY (word lo hi)))
  else if op = 0xc0 then two (.cmp .y (.imm lo))
  else if op = 0xc6 then two (.dec lo.toNat)
  else none

/-- the flags N, Z and (after a comparison) C -/
def isNeg (v : UInt8) : Bool := 128 ≤ v.toNat
def isZero (v : UInt8) : Bool := v = 0
def isGe (a b : Nat) : Bool := b ≤ a

/-- storing one byte -/
def poke (m : Nat → UInt8) (a : Nat) (v : UInt8) : Nat → UInt8 := fun p => if p = a then v else m p

def Cpu.reg (c : Cpu) : Reg6502 → UInt8
  | .a => c.a
  | .x => c.x
  | .y => c.y

/-- loading a register sets the flags N and Z -/
def Cpu.setReg (c : Cpu) (r : Reg6502) (v : UInt8) : Cpu :=
  let c := { c with n := isNeg v, z := isZero v }
  match r with
  | .a => { c with a := v }
  | .x => { c with x := v }
  | .y => { c with y := v }

def Cpu.flag (c : Cpu) : Flag6502 → Bool
  | .n => c.n
  | .z => c.z
  | .c => c.c

/-- the address of an operand in memory -/
def Cpu.addr (c : Cpu) : Mode6502 → Nat
  | .imm _ => 0
  | .abs a => a
  | .absX a => (a + c.x.toNat) % 0x10000
  | .absY a => (a + c.y.toNat) % 0x10000
  | .indY a => (word (c.mem a) (c.mem ((a + 1) % 256)) + c.y.toNat) % 0x10000

def Cpu.value (c : Cpu) : Mode6502 → UInt8
  | .imm v => v
  | m => c.mem (c.addr m)

/-- a byte stored in memory with the flags N and Z set from it (`INC`, `DEC`) -/
def Cpu.modify (c : Cpu) (a : Nat) (v : UInt8) : Cpu :=
  { c with mem := poke c.mem a v, n := isNeg v, z := isZero v }

/-- `JSR` keeps the address of its last byte on the stack, high byte first; the stack is page 1 -/
def Cpu.push (c : Cpu) (v : UInt8) : Cpu := { c with mem := poke c.mem (0x100 + c.s.toNat) v, s := c.s - 1 }

/-- `RTS` -/
def Cpu.ret (c : Cpu) : Cpu :=
  { c with s := c.s + 2, pc := (word (c.mem (0x100 + (c.s + 1).toNat)) (c.mem (0x100 + (c.s + 2).toNat)) + 1) % 0x10000 }

/-- one instruction; `pc` is already behind it -/
def Cpu.exec (c : Cpu) : Ins6502 → Cpu
  | .ld r m => c.setReg r (c.value m)
  | .st r m => { c with mem := poke c.mem (c.addr m) (c.reg r) }
  | .cmp r m =>
    let v := c.reg r - c.value m
    { c with n := isNeg v, z := isZero v, c := isGe (c.reg r).toNat (c.value m).toNat }
  | .and m => c.setReg .a (c.a &&& c.value m)
  | .or m => c.setReg .a (c.a ||| c.value m)
  | .sbc m =>
    { c.setReg .a (c.a - c.value m - (if c.c then 0 else 1)) with
      c := isGe c.a.toNat ((c.value m).toNat + (if c.c then 0 else 1)) }
  | .inc a => c.modify a (c.mem a + 1)
  | .dec a => c.modify a (c.mem a - 1)
  | .inx => c.setReg .x (c.x + 1)
  | .iny => c.setReg .y (c.y + 1)
  | .dex => c.setReg .x (c.x - 1)
  | .tax => c.setReg .x c.a
  | .tay => c.setReg .y c.a
  | .txa => c.setReg .a c.x
  | .bit m => { c with n := isNeg (c.value m), z := isZero (c.a &&& c.value m) }
  | .asl a => { c.modify a (c.mem a + c.mem a) with c := isNeg (c.mem a) }
  | .rol => { c.setReg .a (c.a + c.a + (if c.c then 1 else 0)) with c := isNeg c.a }
  | .clc => { c with c := false }
  | .pha => c.push c.a
  | .br f v t => if c.flag f = v then { c with pc := t } else c
  | .jsr a =>
    let r := (c.pc + 0xffff) % 0x10000
    { ((c.push (UInt8.ofNat (r / 256))).push (UInt8.ofNat r)) with pc := a }
  | .jmp a => { c with pc := a }
  | .jmpInd a => { c with pc := word (c.mem a) (c.mem (a + 1)) }
  | .rts => c.ret

/-- The machine around the processor: the sectors of the disk in drive 1, the addresses the operating system keeps for itself, and what
it leaves in the registers and in its memory after reading a sector. -/
structure Atari where
  disk : Nat → Option Bytes
  os : Nat → Prop
  [dec : DecidablePred os]
  after : Cpu → Cpu

instance (A : Atari) : DecidablePred A.os := A.dec

/-- `SIOV` at 0xe459 with the command "read a sector" in the device control block at 0x300: device 0x31, unit 1, command `R`, direction
0x40, 128 bytes to the buffer, sector number in 0x30a.  The status goes to 0x303 and to Y with the flags set from it.  The operating
system may change its own memory, the stack below the stack pointer, and the other registers.  Other calls and sectors that do not
exist are not described (`none`). -/
def Atari.sio (A : Atari) (c : Cpu) : Option Cpu :=
  if c.mem 0x300 = 0x31 ∧ c.mem 0x301 = 1 ∧ c.mem 0x302 = 0x52 ∧ c.mem 0x303 = 0x40 ∧ word (c.mem 0x308) (c.mem 0x309) = 128 then
    match A.disk (word (c.mem 0x30a) (c.mem 0x30b)) with
    | none => none
    | some d =>
      let buf := word (c.mem 0x304) (c.mem 0x305)
      let m := fun p =>
        if buf ≤ p ∧ p < buf + 128 then d.getD (p - buf) 0
        else if p = 0x303 then 1
        else if A.os p ∨ (0x180 ≤ p ∧ p ≤ 0x100 + c.s.toNat) then (A.after c).mem p
        else c.mem p
      some ({ c with mem := m, a := (A.after c).a, x := (A.after c).x, c := (A.after c).c, y := 1, n := false, z := false } : Cpu).ret
  else none

/-- one step of the machine; `none` for instructions not described here (such as `BRK`) -/
def Atari.step (A : Atari) (c : Cpu) : Option Cpu :=
  if c.pc = 0xe459 then A.sio c
  else match decode6502 c.mem c.pc with
    | none => none
    | some (i, len) => some (({ c with pc := (c.pc + len) % 0x10000 } : Cpu).exec i)

/-- the machine gets from one state to another -/
inductive Atari.Runs (A : Atari) : Cpu → Cpu → Prop
  | refl (c : Cpu) : Runs A c c
  | step {c d e : Cpu} : A.step c = some d → Runs A d e → Runs A c e

/-! ### what loading means -/

/-- the bytes of a segment put into memory from its origin on -/
def loadSeg (m : Nat → UInt8) (s : Seg) : Nat → UInt8 :=
  fun p => if s.origin ≤ p ∧ p < s.origin + s.data.length then s.data.getD (p - s.origin) 0 else m p

/-- one segment after the other -/
def loadSegs (m : Nat → UInt8) (segs : List Seg) : Nat → UInt8 := segs.foldl loadSeg m

/-- sector `n` (from 1) of an image with a header of 16 bytes that states a sector size (bytes 4 and 5) of 128 bytes -/
def atrSector (img : Bytes) (n : Nat) : Option Bytes :=
  if word (img.getD 4 0) (img.getD 5 0) = 128 ∧ 1 ≤ n ∧ 16 + 128 * n ≤ img.length then some ((img.drop (16 + 128 * (n - 1))).take 128) else none

/-- The operating system has read the boot sectors: the first sector says how many there are (second byte) and where they go (third and
fourth byte); then it calls the code after the first six bytes. -/
structure Booted (A : Atari) (c : Cpu) : Prop where
  loaded : ∃ b, A.disk 1 = some b ∧ c.pc = word (b.getD 2 0) (b.getD 3 0) + 6 ∧
    ∀ k < (b.getD 1 0).toNat, ∃ d, A.disk (k + 1) = some d ∧
      ∀ i < 128, c.mem (word (b.getD 2 0) (b.getD 3 0) + 128 * k + i) = d.getD i 0

end Atr
