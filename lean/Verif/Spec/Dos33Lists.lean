import Verif.Spec.Dos33
/-!
# How DOS 3.3 finds a sector of a file

The track/sector lists of a file are linked by the bytes 1 and 2.  A list names up to 122 sectors from byte 12 on; the bytes 5 and
6 (low byte first) tell which sector of the file the first of them is.  To find sector `n` of a file, DOS 3.3 goes along the lists
until it comes to the one that covers `n`.
-/
namespace Atr

/-- number of the first sector of the file in the list -/
def listFirst33 (raw : Bytes) : Nat := (raw.getD 5 0).toNat + 256 * (raw.getD 6 0).toNat
/-- sector with the index `k` in the list -/
def listPair33 (raw : Bytes) (k : Nat) : Nat := 16 * (raw.getD (12 + 2 * k) 0).toNat + (raw.getD (13 + 2 * k) 0).toNat
/-- the next list, 0 at the end -/
def listNext33 (raw : Bytes) : Nat := 16 * (raw.getD 1 0).toNat + (raw.getD 2 0).toNat

/-- from the list in sector `t` on, sector `n` of the file is found to be `s` -/
inductive DosFinds33 (b : Bytes) : Nat → Nat → Nat → Prop
  | here {t n : Nat} : listFirst33 (sec33 b t) ≤ n → n < listFirst33 (sec33 b t) + 122 →
      DosFinds33 b t n (listPair33 (sec33 b t) (n - listFirst33 (sec33 b t)))
  | next {t n s : Nat} : n < listFirst33 (sec33 b t) ∨ listFirst33 (sec33 b t) + 122 ≤ n → listNext33 (sec33 b t) ≠ 0 →
      DosFinds33 b (listNext33 (sec33 b t)) n s → DosFinds33 b t n s

end Atr
