import Verif.Spec.Dos33Read
/-!
# What a DOS 3.3 volume is, for any image

The VTOC is sector 272: bytes 1 and 2 give the first catalog sector, byte 3 the DOS release, bytes 0x34 and 0x35 numbers of
tracks and of sectors per track.  A catalog sector links to the next one by bytes 1 and 2; it has seven entries of 35 bytes from
byte 11 on.
-/
namespace Atr

/-- byte `p` of the image -/
def byteOf (b : Bytes) (p : Nat) : Nat := (b.getD p 0).toNat

/-- the number of sectors that the VTOC states -/
def sectors33 (b : Bytes) : Nat := secByte33 b 272 0x34 * secByte33 b 272 0x35

/-- where the entries of catalog sector `s` are -/
def entryPos33 (s : Nat) : List Nat := (List.range 7).map fun i => 256 * s + 11 + 35 * i

/-- the entry at `p` has flag byte 0 and is not marked as deleted: the code looks no further in its catalog sector -/
def lastEntry33 (b : Bytes) (p : Nat) : Bool := byteOf b p != 255 && byteOf b (p + 2) == 0

/-- the entries of catalog sector `s` that are looked at -/
def seenEntries33 (b : Bytes) (s : Nat) : List Nat := (entryPos33 s).takeWhile fun p => !lastEntry33 b p

/-- the entry at `p` is marked as deleted, or its list starts on the disk (and not on track 0) and the file is no longer than the disk -/
def GoodEntry33 (n : Nat) (b : Bytes) (p : Nat) : Prop :=
  byteOf b p = 255 ∨ byteOf b p ≠ 0 ∧ 16 * byteOf b p + byteOf b (p + 1) < n ∧ byteOf b (p + 33) + 256 * byteOf b (p + 34) ≤ n

instance (n : Nat) (b : Bytes) (p : Nat) : Decidable (GoodEntry33 n b p) := by unfold GoodEntry33; infer_instance

/-- the catalog that starts in sector `s` consists of the sectors `cs` -/
inductive CatChain33 (n : Nat) (b : Bytes) : Nat → List Nat → Prop
  | done : CatChain33 n b 0 []
  | next {s cs} : s ≠ 0 → s < n → s < 560 → CatChain33 n b (pairAt33 b s 1) cs → CatChain33 n b s (s :: cs)

/-- the catalog that starts in sector `s` leads to sector `t`, which is not below `n` or not in the image -/
inductive CatOut33 (n : Nat) (b : Bytes) : Nat → Nat → Prop
  | here {s} : s ≠ 0 → (n ≤ s ∨ 560 ≤ s) → CatOut33 n b s s
  | next {s t} : s ≠ 0 → s < n → s < 560 → CatOut33 n b (pairAt33 b s 1) t → CatOut33 n b s t

/-- the first checks: not ProDOS, and if the release is 3 the catalog starts on tracks 0 to 34, sectors 0 to 15 -/
def BootOk33 (b : Bytes) : Prop :=
  b.take 4 ≠ [1, 56, 176, 3] ∧ (secByte33 b 272 3 = 3 → secByte33 b 272 1 < 35 ∧ secByte33 b 272 2 < 16)

instance (b : Bytes) : Decidable (BootOk33 b) := by unfold BootOk33; infer_instance

/-- name, type, lock and place of a file, as stored at `p`.  (A name has 30 characters; the last one is not looked at.) -/
structure FileInfo33 where
  name : Bytes
  ftype : Nat
  locked : Bool
  first : Nat
  sectors : Nat
  /-- the track that `first` is on -/
  track : Nat
deriving DecidableEq

def fileInfo33 (b : Bytes) (p : Nat) : FileInfo33 where
  name := (rstripWs ((slice b (p + 3) (p + 32)).map (· - 0x80))).filter (· < 0x80)
  ftype := byteOf b (p + 2) % 128
  locked := 128 ≤ byteOf b (p + 2)
  first := 16 * byteOf b p + byteOf b (p + 1)
  sectors := byteOf b (p + 33) + 256 * byteOf b (p + 34)
  track := byteOf b p

end Atr
