import Verif.Model.Segments
/-!
# What segments are meant to be

A segment is a list of positions of the base array: the base itself, a slice of another segment, or some positions of
another segment in a new order.
-/
namespace Atr

/-- how a segment was made -/
inductive Nest
  | base
  | slc (inner : Nest) (a b : Nat)
  | reorder (inner : Nest) (l : List Nat)

/-- the positions of the base array of length `n` that a segment shows, in order; `none` if an index is out of range -/
def Nest.pos (n : Nat) : Nest → Option (List Nat)
  | .base => some (List.range n)
  | .slc inner a b => (inner.pos n).map fun ps => slice ps a b
  | .reorder inner l => (inner.pos n).bind fun ps => l.mapM fun i => ps[i]?

/-- the code's objects for the same construction -/
def Nest.build (n : Nat) : Nest → Except Err SegView
  | .base => .ok (.whole n)
  | .slc inner a b => (inner.build n).map fun v => v.slc a b
  | .reorder inner l => (inner.build n).bind fun v => v.indexed l

/-- no list of new positions has a repetition -/
def Nest.Distinct : Nest → Prop
  | .base => True
  | .slc inner _ _ => inner.Distinct
  | .reorder inner l => inner.Distinct ∧ l.Nodup

end Atr
