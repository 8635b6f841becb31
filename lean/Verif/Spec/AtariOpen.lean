import Verif.Spec.Sparta
/-!
# Which images are Atari DOS volumes
-/
namespace Atr

/-- a directory that can be read: whole entries of 16 bytes up to one with flag 0 or to the end, every entry in use
(flag bit 6) starting in an existing sector and claiming at most as many sectors as the disk has -/
inductive DirFine (maxS : Nat) : Bytes → Prop
  | full : DirFine maxS []
  | stop {d : Bytes} : 16 ≤ d.length → d.getD 0 0 = 0 → DirFine maxS d
  | entry {d : Bytes} : 16 ≤ d.length → d.getD 0 0 ≠ 0 →
      ((d.getD 0 0).toNat.testBit 6 = true → 1 ≤ wordAt d 3 ∧ wordAt d 3 ≤ maxS ∧ wordAt d 1 ≤ maxS) →
      DirFine maxS (d.drop 16) → DirFine maxS d

end Atr
