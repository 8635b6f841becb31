import Verif.Model.Cli
import Verif.Spec.Atari
/-!
# The abstract map behind a history of commands
-/
namespace Atr

/-- names with contents -/
abbrev FMap := List (Bytes × Bytes)

def FMap.keys (M : FMap) : List Bytes := M.map (·.1)
def FMap.del (M : FMap) (n : Bytes) : FMap := M.filter (fun x => x.1 != n)
def FMap.put (M : FMap) (n d : Bytes) : FMap := (n, d) :: M.del n
def FMap.get (M : FMap) (n : Bytes) : Option Bytes := M.lookup n

/-- adding one file: an existing file is only replaced with `force` -/
def FMap.addOne (force : Bool) (M : FMap) (n d : Bytes) : FMap :=
  if n ∈ M.keys ∧ force = false then M else M.put n d

def FMap.addAll (force : Bool) : FMap → List (Bytes × Bytes) → FMap
  | M, [] => M
  | M, (n, d) :: fs => FMap.addAll force (M.addOne force n d) fs

/-- was the last file of the list skipped? (no file at all counts as skipped) -/
def FMap.lastSkipped (force : Bool) : FMap → List (Bytes × Bytes) → Bool
  | _, [] => true
  | M, [(n, _)] => decide (n ∈ M.keys ∧ force = false)
  | M, (n, d) :: fs => FMap.lastSkipped force (M.addOne force n d) fs

/-- effect of a successful command on the map.  The first case is the defect C37: if the last file of an `add` is
skipped, nothing is saved. -/
def Cmd.spec (o : Opts) (M : FMap) : Cmd → FMap
  | .add fs => if o.dryRun || M.lastSkipped o.force fs then M else M.addAll o.force fs
  | .remove ns => if o.dryRun then M else ns.foldl FMap.del M
  | .shred => M

/-- effect of a command that gave result `r`: a failing command does nothing -/
def Cmd.specR (o : Opts) (M : FMap) (c : Cmd) : Except Err Unit → FMap
  | .ok _ => c.spec o M
  | .error _ => M

/-- effect of a history with the given results -/
def specHistory : FMap → List (Opts × Cmd) → List (Except Err Unit) → FMap
  | M, (o, c) :: cs, r :: rs => specHistory (c.specR o M r) cs rs
  | M, _, _ => M

/-- the files of an `add` are within the limits of Atari DOS: canonical 8.3 names, not empty (C50), and at
most 63 other files are present (C51) -/
def AddLegal (force : Bool) : FMap → List (Bytes × Bytes) → Prop
  | _, [] => True
  | M, (n, d) :: fs => Canon83 n ∧ d ≠ [] ∧ (M.del n).length < 64 ∧ AddLegal force (M.addOne force n d) fs

def Cmd.Legal (o : Opts) (M : FMap) : Cmd → Prop
  | .add fs => AddLegal o.force M fs
  | _ => True

/-- every command of a history is legal when it is run -/
def HistoryLegal : FMap → List (Opts × Cmd) → List (Except Err Unit) → Prop
  | M, (o, c) :: cs, r :: rs => c.Legal o M ∧ HistoryLegal (c.specR o M r) cs rs
  | _, _, _ => True

/-- the image file `b` is a consistent Atari DOS volume whose listed files are exactly the entries of `M` -/
def Holds (h : AHeader) (b : Bytes) (M : FMap) : Prop :=
  ∃ m ds, AImg.open b = .ok m ∧ Mounted m ds ∧ m.bytes = b ∧ m.hdr = h ∧
    m.listing.Perm (M.map fun x => (x.1, .ok x.2))

end Atr
