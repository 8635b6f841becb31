import Verif.Model.Py
/-!
# Segments as views of one base array (segments.py)

A `SegmentData` is a whole array, a contiguous slice of it, or an `OrderWrapper` with a list of positions of the base
array.  `np.byte_bounds` differences are replaced by explicit offsets.  Simplifications: slices have step one and
non-negative bounds; index lists are lists of natural numbers (a Python list becomes `uint32`, utils.py:37-40), so the
negative indexes an `int64` array could carry are not modelled.
-/
namespace Atr

/-- `a[ps] = vals` with an index array: NumPy stores one after the other, the last store wins. -/
def setAll {α : Type} (a : List α) (ps : List Nat) (vals : List α) : List α :=
  (ps.zip vals).foldl (fun a p => a.set p.1 p.2) a

/-- `a[ps] op= …` with an index array: read all, compute, store all. -/
def modBase (a : Bytes) (ps : List Nat) (f : UInt8 → UInt8) : Bytes :=
  setAll a ps (ps.map fun p => f (a.getD p 0))

/-- `a[s:e] op= …` on an array -/
def modSlice (a : Bytes) (s e : Nat) (f : UInt8 → UInt8) : Bytes := splice a s ((slice a s e).map f)

/-- The three shapes of `SegmentData`, segments.py:143-176.  `n` is the length of the base array. -/
inductive SegView
  /-- `data.base is None` -/
  | whole (n : Nat)
  /-- a contiguous view `base[off:off+len]` -/
  | part (n off len : Nat)
  /-- `is_indexed`: `OrderWrapper` around the base array -/
  | order (n : Nat) (idx : List Nat)
deriving DecidableEq, Repr

/-- `base_length`, segments.py:212-231 -/
def SegView.baseLen : SegView → Nat
  | .whole n => n
  | .part n _ _ => n
  | .order n _ => n

/-- `__len__`, segments.py:181-182, 228; `OrderWrapper.__len__` 99-100 -/
def SegView.len : SegView → Nat
  | .whole n => n
  | .part _ _ len => len
  | .order _ idx => idx.length

/-- `byte_bounds_offset`, segments.py:266-279 -/
def SegView.bounds : SegView → Nat × Nat
  | .whole n => (0, n)
  | .part _ off len => (off, off + len)
  | .order n _ => (0, n)

/-- `get_raw_index`, segments.py:281-289.  No bounds check unless indexed. -/
def SegView.rawIndex (v : SegView) (i : Nat) : Except Err Nat :=
  match v with
  | .whole _ => .ok i
  | .part _ off _ => .ok (off + i)
  | .order _ idx =>
    match idx[i]? with
    | some p => .ok p
    | none => .error .indexError

/-- `get_indexes_from_base`, segments.py:291-303: the indexed branch uses `i` before assignment
(`UnboundLocalError`). -/
def SegView.indexesFromBase : SegView → Except Err (List Nat)
  | .whole n => .ok (List.range' 0 n)
  | .part _ off len => .ok (List.range' off len)
  | .order _ _ => .error .nameError

/-- `__getitem__` with a slice, segments.py:305-315.  NumPy lets an empty slice of an array start where its parent starts. -/
def SegView.slc (v : SegView) (a b : Nat) : SegView :=
  match v with
  | .whole n => if min b n ≤ min a n then .part n 0 0 else .part n (min a n) (min b n - min a n)
  | .part n off len => if min b len ≤ min a len then .part n off 0 else .part n (off + min a len) (min b len - min a len)
  | .order n idx => .order n (slice idx a b)

/-- `get_indexed`, segments.py:344-355 (`get_bases` 335-342, `sub_index` 115-120) -/
def SegView.indexed (v : SegView) (l : List Nat) : Except Err SegView :=
  match v with
  | .order n idx => if l.all (· < idx.length) then .ok (.order n (l.map fun i => idx.getD i 0)) else .error .indexError
  | .whole n => if l.all (· < n) then .ok (.order n (l.map fun i => i + 0)) else .error .indexError
  | .part n off len => if l.all (· < len) then .ok (.order n (l.map fun i => i + off)) else .error .indexError

/-- `reverse_index_mapping`, segments.py:357-377; `-1` means not mapped -/
def SegView.reverseMap : SegView → List Int
  | .order n idx => setAll (List.replicate n (-1 : Int)) idx ((List.range idx.length).map Int.ofNat)
  | .whole n => (List.range n).map Int.ofNat
  | .part n off len => splice (List.replicate n (-1 : Int)) off ((List.range len).map Int.ofNat)

/-- `get_reverse_index`, segments.py:379-388; a base index beyond the array raises `IndexError` too -/
def SegView.reverseIndex (v : SegView) (p : Nat) : Except Err Nat :=
  match v.reverseMap[p]? with
  | none => .error .indexError
  | some r => if r < 0 then .error .indexError else .ok r.toNat

/-- the bytes a view shows: `data[:]`, `unindexed_data` segments.py:254-258, `OrderWrapper.__getitem__` 109-110 -/
def SegView.read (v : SegView) (a : Bytes) : Bytes :=
  match v with
  | .whole _ => a
  | .part _ off len => slice a off (off + len)
  | .order _ idx => idx.map fun p => a.getD p 0

/-- `data[i] = x`, segments.py:624-626 and `OrderWrapper.__setitem__` 112-113 -/
def SegView.write (v : SegView) (a : Bytes) (i : Nat) (x : UInt8) : Except Err Bytes :=
  match v with
  | .whole _ => if i < a.length then .ok (a.set i x) else .error .indexError
  | .part _ off len => if i < len then .ok (a.set (off + i) x) else .error .indexError
  | .order _ idx =>
    match idx[i]? with
    | some p => .ok (a.set p x)
    | none => .error .indexError

/-- `arr[s:e] op= …` through a view; for an `OrderWrapper` that is `__getitem__`, the operation, `__setitem__`. -/
def SegView.modRange (v : SegView) (a : Bytes) (s e : Nat) (f : UInt8 → UInt8) : Bytes :=
  match v with
  | .whole _ => modSlice a s e f
  | .part _ off len => modSlice a (off + min s len) (off + min e len) f
  | .order _ idx => modBase a (slice idx s e) f

/-- `arr[l] op= …` through a view for a list `l` of positions inside the view -/
def SegView.modAt (v : SegView) (a : Bytes) (l : List Nat) (f : UInt8 → UInt8) : Bytes :=
  match v with
  | .whole _ => modBase a l f
  | .part _ off _ => modBase a (l.map (off + ·)) f
  | .order _ idx => modBase a (l.map fun i => idx.getD i 0) f

/-- One allocated array with its style array. -/
structure Arr where
  data : Bytes
  style : Bytes
deriving DecidableEq, Repr

/-- A `SegmentData` object: which array, and how it looks at it. -/
structure Raw where
  arr : Nat
  view : SegView
deriving DecidableEq, Repr

/-- All arrays allocated so far. -/
abbrev Heap := List Arr

def Heap.at (h : Heap) (i : Nat) : Arr := h.getD i ⟨[], []⟩

/-- bytes and styles shown by a segment -/
def Raw.data (r : Raw) (h : Heap) : Bytes := r.view.read (h.at r.arr).data
def Raw.style (r : Raw) (h : Heap) : Bytes := r.view.read (h.at r.arr).style

/-- `segment.data[i] = x` -/
def Raw.writeData (r : Raw) (h : Heap) (i : Nat) (x : UInt8) : Except Err Heap :=
  match r.view.write (h.at r.arr).data i x with
  | .ok d => .ok (h.set r.arr { h.at r.arr with data := d })
  | .error e => .error e

/-- `segment.style[i] = x` -/
def Raw.writeStyle (r : Raw) (h : Heap) (i : Nat) (x : UInt8) : Except Err Heap :=
  match r.view.write (h.at r.arr).style i x with
  | .ok d => .ok (h.set r.arr { h.at r.arr with style := d })
  | .error e => .error e

/-- `SegmentData.copy`, segments.py:317-333: new arrays of the whole base, looked at in the same way -/
def Raw.copy (r : Raw) (h : Heap) : Raw × Heap :=
  (⟨h.length, match r.view with
    | .order n idx => .order n idx
    | .whole n => .whole n
    | .part n off len => (SegView.whole n).slc off (off + len)⟩, h ++ [h.at r.arr])

/-! ### Saved state -/

/-- `_rawdata_bounds` and `_order_list` of `__getstate__`, segments.py:471-495 -/
structure SegState where
  start : Nat
  stop : Nat
  orderList : Option (List Nat)
deriving DecidableEq, Repr

/-- `__getstate__`, segments.py:487-492 -/
def SegView.getState (v : SegView) : SegState :=
  ⟨v.bounds.1, v.bounds.2, match v with | .order _ idx => some idx | _ => none⟩

/-- `reconstruct_raw`, segments.py:529-546, with the base segment's `rawdata` of length `n`: `if self._order_list:` is false
for `None` and for an empty list. -/
def SegState.reconstruct (s : SegState) (n : Nat) : Except Err SegView :=
  let r := (SegView.whole n).slc s.start s.stop
  match s.orderList with
  | none => .ok r
  | some [] => .ok r
  | some l => r.indexed l

/-! ### Interleaving -/

/-- positions `start, start+step, …` below `stop`: the Python slice `start:stop:step` -/
def stepPositions (start stop step : Nat) : List Nat :=
  (List.range ((stop - start + step - 1) / step)).map fun k => start + k * step

/-- one assignment `interleave[start::factor] = order[i:size:num_bytes]`, segments.py:1220 -/
def interleaveStore (out : List Nat) (start factor : Nat) (order : List Nat) (i size n : Nat) : Except Err (List Nat) :=
  let ps := stepPositions start out.length factor
  let vs := (stepPositions i (min size order.length) n).map fun k => order.getD k 0
  if ps.length = vs.length then .ok (setAll out ps vs) else .error .valueError

/-- the inner loop `for i in range(num_bytes)`, segments.py:1219-1221 -/
def interleaveBytes (order : List Nat) (factor size n : Nat) : List Nat → List Nat → Nat → Except Err (List Nat × Nat)
  | [], out, start => .ok (out, start)
  | i :: is, out, start =>
    match interleaveStore out start factor order i size n with
    | .error e => .error e
    | .ok out => interleaveBytes order factor size n is out (start + 1)

/-- the loop over the segments, segments.py:1217-1221 -/
def interleaveLoop (factor size n : Nat) : List SegView → List Nat → Nat → Except Err (List Nat)
  | [], out, _ => .ok out
  | v :: vs, out, start =>
    match v.indexesFromBase with
    | .error e => .error e
    | .ok order =>
      match interleaveBytes order factor size n (List.range n) out start with
      | .error e => .error e
      | .ok (out, start) => interleaveLoop factor size n vs out start

/-- `interleave_indexes`, segments.py:1200-1222.  `junk` is the uninitialised memory of `np.empty`. -/
def interleaveIndexes (vs : List SegView) (n : Nat) (junk : Nat → List Nat) : Except Err (List Nat) :=
  match vs with
  | [] => .error .indexError
  | v :: rest =>
    let size := rest.foldl (fun s w => if w.len < s then w.len else s) v.len
    if n = 0 then .error .zeroDivision
    else
      let size := size - size % n
      let out := junk (size * vs.length)
      if size > 0 then interleaveLoop (n * vs.length) size n vs out 0 else .ok out

/-- `interleave_segments`, segments.py:1225-1235: all segments must look at the same array -/
def interleaveSegments (rs : List Raw) (n : Nat) (junk : Nat → List Nat) : Except Err Raw :=
  match interleaveIndexes (rs.map Raw.view) n junk with
  | .error e => .error e
  | .ok idx =>
    match rs with
    | [] => .error .indexError
    | r :: rest => if rest.all (fun q => q.arr == r.arr) then .ok ⟨r.arr, .order r.view.baseLen idx⟩ else .error .valueError

end Atr
