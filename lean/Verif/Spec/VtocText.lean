import Verif.Spec.Display
import Verif.Spec.SpartaShred
import Verif.Spec.Dos33
/-!
# Reading what `vtoc` prints
-/
namespace Atr

/-- the line of a track: its number and the figures, between which there are only brackets and blanks -/
def readTrack (t : List Char) : Option (Nat × List Bool) := do
  let t ← expect "track ".toList t
  let (n, t) ← number t
  let t ← expect ": ".toList t
  if t.all fun c => "[] 01".toList.contains c then some (n, (t.filter Char.isDigit).map (· == '1')) else none

/-- the last line: the number of free sectors -/
def readFree (t : List Char) : Option Nat := do
  let t ← expect " (".toList t
  let (n, t) ← number t
  if t = " free)".toList then some n else none

/-- Sector `s` is free on an Atari DOS disk: the bitmap is in sector 360 from byte 10 on, the highest bit first, for the sectors below 720. -/
def AtariFree (h : AHeader) (b : Bytes) (s : Nat) : Prop :=
  s < 720 ∧ ((sectorBytes h b 360).getD (10 + s / 8) 0).toNat / 2 ^ (7 - s % 8) % 2 = 1

instance (h : AHeader) (b : Bytes) (s : Nat) : Decidable (AtariFree h b s) := inferInstanceAs (Decidable (_ ∧ _))

/-- The lines `L` show `tracks` tracks of `per` sectors, of which the first has the number `label`: line `t` is about track `t` and has a 1 for each
of its sectors that is free, and a 0 for the others. -/
def ShowsTracks (label tracks per : Nat) (free : Nat → Prop) (L : List (List Char)) : Prop :=
  ∀ t, t < tracks → ∃ l f, L[t]? = some l ∧ readTrack l = some (t, f) ∧ f.length = per ∧ ∀ j, j < per → (f[j]? = some true ↔ free (label + per * t + j))

end Atr
