import Verif.Model.Segments
/-!
# Containers that grow: `/repo/atrcopy/segments.py:179-211, 430-462`
-/
namespace Atr

/-- the array that `np.resize` computes: as many copies as are needed, one after the other.  (The result is a view of this array, `reshape` of a slice;
only for an empty array or size 0 it is a new array of its own.) -/
def npResize (a : Bytes) (n : Nat) : Bytes :=
  if a = [] ∨ n = 0 then List.replicate n 0 else (List.replicate ((n + a.length - 1) / a.length) a).flatten

/-- how the resized object looks at it: `data.base` is the array of all copies -/
def npResizeView (old n : Nat) : SegView :=
  if old = 0 ∨ n = 0 then .whole n else .part ((n + old - 1) / old * old) 0 n

/-- `SegmentData.resize`, segments.py:179-191, and `DefaultSegment.resize`, segments.py:430-458, for a segment whose `rawdata` is `r`: both sizes, the
changed `rawdata`, and the new arrays beside all old ones.  `canResize` is the attribute of the segment.  `is_base` (lines 238-240) is false for
everything but a whole array. -/
def Raw.resize (canResize zeros : Bool) (r : Raw) (n : Nat) (h : Heap) : Except Err ((Nat × Nat) × Raw × Heap) :=
  if !canResize then .error .valueError
  else
    match r.view with
    | .whole old =>
      let v := npResizeView old n
      let fill := fun a => if zeros && decide (v.len > old) then v.modRange (npResize a n) old v.len (fun _ => 0) else npResize a n
      .ok ((old, v.len), ⟨h.length, v⟩, h ++ [⟨fill (h.at r.arr).data, fill (h.at r.arr).style⟩])
    | _ => .error .valueError

/-- `SegmentData.replace_arrays`, segments.py:193-211, and `DefaultSegment.replace_data`, lines 460-462; `base` is the `rawdata` of a container, which begins at the
beginning of its array.  There is no `NotImplementedError` in the module `errors`, so line 197 raises `AttributeError`. -/
def Raw.replaceArrays (r base : Raw) : Except Err Raw :=
  if base.view.len < r.view.baseLen then .error .attributeError
  else
    match r.view with
    | .order _ idx => .ok ⟨base.arr, .order base.view.len idx⟩
    | .part _ off len => .ok ⟨base.arr, base.view.slc off (off + len)⟩
    | .whole _ => .error .valueError

end Atr
