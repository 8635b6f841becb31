import Verif.Model.Segments
/-!
# From an address to a byte of the file and back (segments.py)

These functions take any whole number, so negative indexes are modelled here: Python and NumPy count them from the end of
a list, while the difference of two array positions is just a number.
-/
namespace Atr

/-- `l[i]` of a Python list or a NumPy array: a negative `i` counts from the end, once. -/
def pyItem {α : Type} (l : List α) (i : Int) : Except Err α :=
  match (if 0 ≤ i then l[i.toNat]? else if 0 ≤ i + l.length then l[(i + l.length).toNat]? else none) with
  | some x => .ok x
  | none => .error .indexError

/-- `SegmentData.get_raw_index` for any whole number, segments.py:281-289 -/
def SegView.rawIndexInt (v : SegView) (i : Int) : Except Err Int :=
  match v with
  | .whole _ => .ok i
  | .part _ off _ => .ok (off + i)
  | .order _ idx => (pyItem idx i).map Int.ofNat

/-- `get_raw_index_from_address`, segments.py:646-650 -/
def SegView.rawIndexFromAddress (v : SegView) (origin addr : Int) : Except Err Int := v.rawIndexInt (addr - origin)

/-- `get_index_from_base_index`, segments.py:652-662 with `get_reverse_index` 379-388 -/
def SegView.indexFromBase (v : SegView) (p : Int) : Except Err Nat :=
  match pyItem v.reverseMap p with
  | .error e => .error e
  | .ok r => if r < 0 then .error .indexError else .ok r.toNat

/-- `is_valid_index`, segments.py:637-638 -/
def SegView.isValidIndex (v : SegView) (i : Int) : Bool := 0 ≤ i && i < v.len

/-- `create_subset`, segments.py:464-469: the data of the new segment -/
def SegView.createSubset (v : SegView) (l : List Nat) : Except Err SegView := v.indexed l

/-- `get_parallel_raw_data`, segments.py:547-554.  `other` is a segment, which has no attribute `order`: `AttributeError`. -/
def SegView.parallel (v other : SegView) : Except Err SegView :=
  let r := v.slc other.bounds.1 other.bounds.2
  match other with
  | .order _ _ => .error .attributeError
  | _ => .ok r

end Atr
