import Verif.Model.Session
import Verif.Lemmas.Segments
/-!
# What it means that a session brings segments back
-/
namespace Atr

/-- a segment as the constructors make it: every attribute that is saved exists, it has a memory map with distinct addresses, and it looks
at existing positions of its base array -/
structure SegObj.Complete {V : Type} (c : SegClass V) (s : SegObj V) (v : SegView) : Prop where
  attrs : ∀ k ∈ c.keys, ∃ x, s.attrs k = some x
  map : ∃ mm, s.memoryMap = some mm ∧ (mm.map (·.1)).Nodup
  raw : s.raw = some v
  wf : v.Wf

/-- `s'` is `s` again: it has the saved attributes and no others, the same memory map, and it looks at the same positions -/
structure Restored {V : Type} (c : SegClass V) (s s' : SegObj V) : Prop where
  attrs : ∀ k, s'.attrs k = if k ∈ c.keys then s.attrs k else none
  map : ∃ mm mm', s.memoryMap = some mm ∧ s'.memoryMap = some mm' ∧ (mm'.map (·.1)).Nodup ∧ ∀ a, dictGet mm' a = dictGet mm a
  raw : ∃ v v', s.raw = some v ∧ s'.raw = some v' ∧ v'.Wf ∧ v'.positions = v.positions ∧ v'.baseLen = v.baseLen

/-- lists of segments that correspond one by one -/
inductive RestoredAll {V : Type} : List (SegClass V × SegObj V) → List (SegClass V × SegObj V) → Prop
  | nil : RestoredAll [] []
  | cons {c s s' l l'} : Restored c s s' → RestoredAll l l' → RestoredAll ((c, s) :: l) ((c, s') :: l')

end Atr
