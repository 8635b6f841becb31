import Verif.Spec.BRun
/-!
# The disk `dos33autobrun.dsk`

It has DOS 3.3 on tracks 0 to 2 and one file, the Applesoft program `HELLO` that DOS runs after booting.  It asks DOS to `BRUN AUTOBRUN`.
A file `GAME` has been deleted.  What is in the sectors of DOS and in that of the program does not matter here; nor does what is in the
sectors that are free.
-/
namespace Atr

/-- `HELLO` -/
def helloName : Bytes := [0x48, 0x45, 0x4c, 0x4c, 0x4f]
/-- `AUTOBRUN` -/
def autobrunName : Bytes := [0x41, 0x55, 0x54, 0x4f, 0x42, 0x52, 0x55, 0x4e]

/-- sector 272: sectors 50 to 271 and 288 to 559 are free -/
def autobrunVtoc : Bytes :=
  [4, 0x11, 0x0f, 3, 0, 0, 1] ++ List.replicate 32 0 ++ [0x7a] ++ List.replicate 8 0 ++ [0x0b, 0xff, 0, 0, 0x23, 0x10, 0, 1] ++
  List.replicate 12 0 ++ [0xff, 0xfc, 0, 0] ++ (List.replicate 13 [0xff, 0xff, 0, 0]).flatten ++ [0, 0, 0, 0] ++
  (List.replicate 17 [0xff, 0xff, 0, 0]).flatten ++ List.replicate 60 0

/-- the entry of `HELLO`: list in track 3, sector 1, type A, two sectors -/
def helloEntry : Bytes := [3, 1, 2, 0xc8, 0xc5, 0xcc, 0xcc, 0xcf] ++ List.replicate 25 0xa0 ++ [2, 0]
/-- the entry of `GAME`, deleted -/
def gameEntry : Bytes := [0xff, 1, 0xff, 0xc7, 0xc1, 0xcd, 0xc5] ++ List.replicate 25 0xa0 ++ [8, 0x50, 0]

/-- sector 287, the first of the catalog -/
def autobrunCat : Bytes := [0, 0x11, 0x0e] ++ List.replicate 8 0 ++ helloEntry ++ gameEntry ++ List.replicate 175 0
/-- sector 49, the list of `HELLO`: sector 48 -/
def helloList : Bytes := List.replicate 12 0 ++ [3] ++ List.replicate 243 0

/-- the sectors of the catalog from the first to the last -/
def autobrunCats : List Nat := [287, 286, 285, 284, 283, 282, 281, 280, 279, 278, 277, 276, 275, 274, 273]

/-- a disk like `/repo/atrcopy/templates/dos33autobrun.dsk` -/
structure Autobrun33 (b : Bytes) : Prop where
  size : b.length = 143360
  boot : slice (sec33 b 0) 0 4 ≠ [1, 56, 176, 3]
  vtoc : sec33 b 272 = autobrunVtoc
  first : sec33 b 287 = autobrunCat
  cat : ∀ s, 274 ≤ s → s < 287 → sec33 b s = [0, 0x11, UInt8.ofNat (s - 273)] ++ List.replicate 253 0
  last : sec33 b 273 = List.replicate 256 0
  list : sec33 b 49 = helloList

/-- DOS 3.3 finds the file `x`, which has the type `ftype`, and reads the bytes of `data` -/
def DosHas33 (b : Bytes) (cs : List Nat) (x : Bytes) (ftype : Nat) (data : Bytes) : Prop :=
  ∃ p, DosEntry33 b cs x p ∧ byteOf b (p + 2) % 128 = ftype ∧
    ∀ k, k < data.length → DosByte33 b (16 * byteOf b p + byteOf b (p + 1)) k (data.getD k 0)

end Atr
