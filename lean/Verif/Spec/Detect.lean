import Verif.Model.AtariHeader
/-!
# What the detection of disk formats looks at, independently of the code
-/
namespace Atr

/-- the first byte after the three boot sectors: three sectors of 128 bytes on a 183936-byte image, three sectors of the
sector size on all others -/
def bootEnd (h : AHeader) : Nat := h.headerOffset + (if h.numInitialSectors = 3 then 384 else 3 * h.sectorSize)

/-- number of bytes of the first `n` sectors -/
def firstBytes (h : AHeader) (n : Nat) : Nat :=
  if h.numInitialSectors = 3 then 128 * min n 3 + h.sectorSize * (n - 3) else h.sectorSize * n

/-- byte `i` of the disk (not counting the ATR header) -/
def bootByte (h : AHeader) (b : Bytes) (i : Nat) : Nat := (b.getD (h.headerOffset + i) 0).toNat

/-- little-endian word at byte `i` of the disk -/
def bootWord (h : AHeader) (b : Bytes) (i : Nat) : Nat := bootByte h b i + 256 * bootByte h b (i + 1)

/-- length of the executable as stated in bytes 9-11 of a KBoot disk -/
def kbootLength (h : AHeader) (b : Bytes) : Nat := bootWord h b 9 + 65536 * bootByte h b 11

/-- Taken for a KBoot disk: the length stated in bytes 9-11 fits a file that starts in sector 4 and ends at most 128 bytes
before the end of the image. -/
def KbootLike (h : AHeader) (b : Bytes) : Prop :=
  bootEnd h + kbootLength h b ≤ b.length ∧ b.length ≤ bootEnd h + kbootLength h b + 128

/-- Taken for a SpartaDOS disk: number of sectors (11), version (32) and sector size code (31) are right, and root directory (9),
bitmap (16) and first free sector (18) are on the disk. -/
def SpartaLike (h : AHeader) (b : Bytes) : Prop :=
  bootWord h b 11 = h.maxSectors ∧ bootWord h b 18 ≤ h.maxSectors ∧ bootWord h b 16 ≤ h.maxSectors ∧ bootWord h b 9 ≤ h.maxSectors ∧
    (bootByte h b 32 = 0x11 ∨ bootByte h b 32 = 0x20 ∨ bootByte h b 32 = 0x21) ∧
    (bootByte h b 31 = 0 ∨ bootByte h b 31 = 1 ∨ bootByte h b 31 = 0x80)

/-- Taken for a boot disk: at least one boot sector, all of them loaded below address 0xc000, and not the start of an
executable. -/
def BootLike (h : AHeader) (b : Bytes) : Prop :=
  bootWord h b 0 ≠ 0xffff ∧ 1 ≤ bootByte h b 1 ∧ bootWord h b 2 + bootByte h b 1 * h.sectorSize ≤ 0xc000

/-- the sizes of the usual disks without ATR header -/
def xfdSizes : List Nat := [92160, 133120, 183936, 184320]

/-- The file is accepted as an Atari disk at all: it has an ATR header, or no header and one of the usual sizes. -/
def UsualDisk (h : AHeader) (b : Bytes) : Prop := h.headerOffset = 16 ∨ b.length ∈ xfdSizes

end Atr
