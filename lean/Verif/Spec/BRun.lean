import Verif.Spec.Dos33Names
import Verif.Spec.Dos33Lists
import Verif.Spec.Cpu6502
/-!
# The command `BRUN` of DOS 3.3

The file must have the type B (4).  Its first two bytes are an address, the next two a length, low bytes first.  So many of the
bytes that follow are put into memory from the address on, and the program is started there.
-/
namespace Atr

/-- the entry of the file with the name `x` is at `p` -/
def DosEntry33 (b : Bytes) (cs : List Nat) (x : Bytes) (p : Nat) : Prop :=
  (dosSeen33 b cs).find? (fun p => decide (byteOf b p < 128) && decide (nameField33 b p = x)) = some p

/-- DOS 3.3 reads `v` as byte `k` of the file whose first list is in sector `t`; a sector 0 in a list is a hole -/
def DosByte33 (b : Bytes) (t k : Nat) (v : UInt8) : Prop := ∃ s, s ≠ 0 ∧ DosFinds33 b t (k / 256) s ∧ (sec33 b s).getD (k % 256) 0 = v

/-- two bytes from byte `k` of the file on -/
def DosWord33 (b : Bytes) (t k n : Nat) : Prop := ∃ lo hi, DosByte33 b t k lo ∧ DosByte33 b t (k + 1) hi ∧ n = word lo hi

/-- `BRUN` of the file `x` turns the memory `mem` into `mem'` and starts the program at `pc` -/
def BRuns (b : Bytes) (cs : List Nat) (x : Bytes) (mem mem' : Nat → UInt8) (pc : Nat) : Prop :=
  ∃ p len, DosEntry33 b cs x p ∧ byteOf b (p + 2) % 128 = 4 ∧
    DosWord33 b (16 * byteOf b p + byteOf b (p + 1)) 0 pc ∧ DosWord33 b (16 * byteOf b p + byteOf b (p + 1)) 2 len ∧
    (∀ k, k < len → DosByte33 b (16 * byteOf b p + byteOf b (p + 1)) (4 + k) (mem' ((pc + k) % 65536))) ∧
    ∀ a, (∀ k, k < len → a ≠ (pc + k) % 65536) → mem' a = mem a

end Atr
