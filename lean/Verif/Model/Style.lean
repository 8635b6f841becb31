import Verif.Model.Segments
/-!
# Styles and comments of segments (segments.py:9-57, 667-1088)

The functions work on the base style array and the comment dictionary of the base (`UserExtraData`), seen through a
`SegView`.  Range bounds are natural numbers.  Logging is omitted.
-/
namespace Atr

/-- keyword arguments of the style functions, segments.py:22.  `user=0` and an absent `user` behave alike. -/
structure Kind where
  user : Nat := 0
  diff : Bool := false
  isMatch : Bool := false
  comment : Bool := false
  data : Bool := false
  selected : Bool := false
deriving DecidableEq, Repr

/-- `get_style_bits`, segments.py:22-45 -/
def styleBits (k : Kind) : UInt8 :=
  let b : UInt8 := 0
  let b := if k.user ≠ 0 then b ||| (UInt8.ofNat k.user &&& 0x07) else b
  let b := if k.diff then b ||| 0x10 else b
  let b := if k.isMatch then b ||| 0x20 else b
  let b := if k.comment then b ||| 0x40 else b
  let b := if k.data then b ||| (0x1 &&& 0x07) else b
  let b := if k.selected then b ||| 0x80 else b
  b

/-- `get_style_mask`, segments.py:48-57 -/
def styleMask (k : Kind) : UInt8 :=
  let bits := styleBits k
  let bits := if k.user ≠ 0 then bits ||| 0x07 else bits &&& (0xff ^^^ 0x07)
  0xff ^^^ bits

/-- a range, swapped if the end is before the start: segments.py:677-678, 685-686 -/
def orderRange (r : Nat × Nat) : Nat × Nat := if r.2 < r.1 then (r.2, r.1) else r

/-- `set_style_ranges`, segments.py:673-679 -/
def setStyleRanges (v : SegView) (style : Bytes) (ranges : List (Nat × Nat)) (k : Kind) : Bytes :=
  ranges.foldl (fun s r => v.modRange s (orderRange r).1 (orderRange r).2 (· ||| styleBits k)) style

/-- `clear_style_ranges`, segments.py:681-687 -/
def clearStyleRanges (v : SegView) (style : Bytes) (ranges : List (Nat × Nat)) (k : Kind) : Bytes :=
  ranges.foldl (fun s r => v.modRange s (orderRange r).1 (orderRange r).2 (· &&& styleMask k)) style

/-- `np.where(m == True)[0]` counted from `i` -/
def whereTrue (i : Nat) : List Bool → List Nat
  | [] => []
  | b :: m => if b then i :: whereTrue (i + 1) m else whereTrue (i + 1) m

/-- `np.split(l, np.where(cut)[0] + 1)` where `cut` says whether two neighbours do not belong together -/
def splitBetween {α : Type} (joined : α → α → Bool) : List α → List (List α)
  | [] => [[]]
  | [a] => [[a]]
  | a :: b :: l =>
    match splitBetween joined (b :: l) with
    | g :: gs => if joined a b then (a :: g) :: gs else [a] :: g :: gs
    | [] => [[a]]

/-- `bool_to_ranges`, segments.py:777-785 -/
def boolToRanges (m : List Bool) : List (Nat × Nat) :=
  (splitBetween (fun a b => b == a + 1) (whereTrue 0 m)).filterMap fun g =>
    match g with
    | [] => none
    | a :: l => some (a, (a :: l).getLastD 0 + 1)

/-- `get_style_ranges`, segments.py:689-694 -/
def getStyleRanges (v : SegView) (style : Bytes) (k : Kind) : List (Nat × Nat) :=
  boolToRanges ((v.read style).map fun s => s &&& styleBits k == styleBits k)

/-- Python's comparison of pairs -/
def pairLt (a b : Int × Int) : Bool := a.1 < b.1 || (a.1 == b.1 && a.2 < b.2)

/-- the binary search of `bisect_right` (`goLeft x` is `value < a[mid]`) and `bisect_left` (`goLeft x` is
`not a[mid] < value`) between `lo` and `hi` -/
def bisectLoop {α : Type} (goLeft : α → Bool) (l : List α) : Nat → Nat → Nat → Nat
  | 0, lo, _ => lo
  | fuel + 1, lo, hi =>
    if lo < hi then
      let mid := (lo + hi) / 2
      match l[mid]? with
      | none => lo
      | some x => if goLeft x then bisectLoop goLeft l fuel lo mid else bisectLoop goLeft l fuel (mid + 1) hi
    else lo

/-- `bisect.bisect_right(l, x)` -/
def bisectRight (l : List (Nat × Nat)) (x : Int × Int) : Nat :=
  bisectLoop (fun r : Nat × Nat => pairLt x ((r.1 : Int), (r.2 : Int))) l (l.length + 1) 0 l.length

/-- `bisect.bisect_left(l, x)` -/
def bisectLeft (l : List (Nat × Nat)) (x : Int × Int) : Nat :=
  bisectLoop (fun r : Nat × Nat => !pairLt ((r.1 : Int), (r.2 : Int)) x) l (l.length + 1) 0 l.length

/-- `find_next`, segments.py:787-795 -/
def findNext (v : SegView) (style : Bytes) (index : Nat) (k : Kind) : Option Nat :=
  let ranges := getStyleRanges v style k
  if ranges.length > 0 then
    let m := bisectRight ranges ((index : Int) + 1, 0)
    let m := if m ≥ ranges.length then 0 else m
    some (ranges.getD m (0, 0)).1
  else none

/-- `find_previous`, segments.py:797-806 -/
def findPrevious (v : SegView) (style : Bytes) (index : Nat) (k : Kind) : Option Nat :=
  let ranges := getStyleRanges v style k
  if ranges.length > 0 then
    let m := bisectLeft ranges ((index : Int) - 1, 0)
    let m := if m = 0 then ranges.length - 1 else m - 1
    some (ranges.getD m (0, 0)).1
  else none

/-! ### Rectangles -/

/-- `get_rect_indexes`, segments.py:808-843: `(anchor_start, (r1, c1), (r2, c2))` (the end anchor is not used by the
callers).  `bytes_per_row = 0` raises `ZeroDivisionError`. -/
def rectIndexes (s e bpr : Nat) : Except Err (Nat × (Nat × Nat) × (Nat × Nat)) :=
  if bpr = 0 then .error .zeroDivision
  else
    let r1 := s / bpr; let c1 := s % bpr
    let r2 := e / bpr; let c2 := e % bpr
    let (r1, c1, r2, c2) :=
      if c1 ≥ c2 then
        if r1 ≥ r2 then (r2, c2, r1, c1 + 1)
        else if c2 = 0 then (r1, c1, r2 - 1, bpr)
        else (r1, c2 - 1, r2, c1 + 1)
      else if r1 > r2 then (r2, c1, r1, c2 + 1)
      else (r1, c1, r2, c2)
    .ok (r1 * bpr + c1, (r1, c1), (r2 + 1, c2))

/-- the index array of `set_style_ranges_rect`, segments.py:868-875:
`np.tile(np.arange(c), r) + np.repeat(np.arange(r) * bytes_per_row, c) + start`, cut to the segment -/
def rectPositions (start r c bpr len : Nat) : List Nat :=
  ((List.range r).flatMap fun i => (List.range c).map fun j => j + i * bpr + start).filter (· < len)

/-- `set_style_ranges_rect`, segments.py:845-876 -/
def setStyleRangesRect (v : SegView) (style : Bytes) (ranges : List (Nat × Nat)) (bpr : Nat) (k : Kind) : Except Err Bytes :=
  ranges.foldl (fun (acc : Except Err Bytes) r =>
    match acc with
    | .error e => .error e
    | .ok s =>
      match rectIndexes r.1 r.2 bpr with
      | .error e => .error e
      | .ok (start, (r1, c1), (r2, c2)) =>
        .ok (v.modAt s (rectPositions start (r2 - r1) (c2 - c1) bpr v.len) (· ||| styleBits k))) (.ok style)

/-! ### Comments -/

/-- the comment dictionary: keys are base positions -/
abbrev Comments := List (Nat × String)

/-- `d[k] = v` -/
def dictSet {α : Type} (d : List (Nat × α)) (k : Nat) (v : α) : List (Nat × α) :=
  if d.any (·.1 == k) then d.map fun p => if p.1 == k then (k, v) else p else d ++ [(k, v)]

/-- `del d[k]` inside `try … except KeyError: pass` -/
def dictDel {α : Type} (d : List (Nat × α)) (k : Nat) : List (Nat × α) := d.filter fun p => !(p.1 == k)

/-- `d.get(k)` -/
def dictGet {α : Type} (d : List (Nat × α)) (k : Nat) : Option α := (d.find? (·.1 == k)).map (·.2)

/-- `get_comment_locations`, segments.py:714-723: a copy of the base styles, masked, with the comment bit at every
comment; `IndexError` if a comment lies outside the base array. -/
def commentLocations (v : SegView) (style : Bytes) (com : Comments) (k : Kind) : Except Err Bytes :=
  let s := style.map (· &&& styleBits k)
  if com.all (fun p => p.1 < s.length) then .ok (v.read (modBase s (com.map (·.1)) (· ||| 0x40))) else .error .indexError

/-- the loop of `get_entire_style_ranges`, segments.py:743-774.  `acc` is the list in reverse, `last` is `last_style`
(`none` for the initial `-1`). -/
def entireLoop (bits : UInt8) (split : List UInt8) (ms : Bytes) :
    List Bytes → Nat → Option UInt8 → List ((Nat × Nat) × UInt8) → List ((Nat × Nat) × UInt8)
  | [], _, _, acc => acc.reverse
  | g :: gs, lastEnd, last, acc =>
    let nextEnd := lastEnd + g.length
    let style := ms.getD lastEnd 0
    let masked := style &&& bits
    let merge :=
      match acc with
      | ((p, _), _) :: acc' => if last = some masked then ((p, nextEnd), masked) :: acc' else ((lastEnd, nextEnd), masked) :: acc
      | [] => [((lastEnd, nextEnd), masked)]
    let acc := if style &&& 0x40 ≠ 0 ∧ split.contains masked then ((lastEnd, nextEnd), masked) :: acc else merge
    entireLoop bits split ms gs nextEnd (some masked) acc

/-- `get_entire_style_ranges`, segments.py:725-775; `none` is Python's `None` for an empty segment -/
def entireStyleRanges (v : SegView) (style : Bytes) (com : Comments) (split : List UInt8) (k : Kind) :
    Except Err (Option (List ((Nat × Nat) × UInt8))) :=
  match commentLocations v style com k with
  | .error e => .error e
  | .ok ms =>
    let groups := splitBetween (fun a b => a == b) ms
    if groups = [[]] then .ok none
    else .ok (some (entireLoop (styleBits k) split ms groups 0 none []))

/-- insertion into a list sorted by key (Python's `sorted`) -/
def insertKey {α : Type} (x : Nat × α) : List (Nat × α) → List (Nat × α)
  | [] => [x]
  | y :: l => if x.1 ≤ y.1 then x :: y :: l else y :: insertKey x l

/-- `get_sorted_comments`, segments.py:1051-1052 -/
def sortedComments (c : Comments) : Comments := c.foldr insertKey []

/-- `serialize_session`, segments.py:556-575: the dictionary entries that are written -/
structure Session where
  commentRanges : List (Nat × Nat)
  dataRanges : List (Nat × Nat)
  /-- `user style 1` … `user style 6`; empty ones are left out of the dictionary, which restores the same -/
  userRanges : List (Nat × List (Nat × Nat))
  comments : Comments

def serializeSession (v : SegView) (style : Bytes) (com : Comments) : Session where
  commentRanges := getStyleRanges v style { comment := true }
  dataRanges := getStyleRanges v style { data := true }
  userRanges := ((List.range' 1 6).map fun i => (i, getStyleRanges v style { user := i })).filter fun p => !p.2.isEmpty
  comments := sortedComments com

/-- `restore_session`, segments.py:576-602, for sessions as written above (the deprecated keys never occur in them) -/
def restoreSession (v : SegView) (style : Bytes) (com : Comments) (e : Session) : Bytes × Comments :=
  let com := e.comments.foldl (fun d p => dictSet d p.1 p.2) com
  let style := setStyleRanges v style e.commentRanges { comment := true }
  let style := setStyleRanges v style e.dataRanges { user := 1 }
  let style := (List.range' 1 6).foldl (fun s i =>
    match e.userRanges.find? (·.1 == i) with
    | some p => setStyleRanges v s p.2 { user := i }
    | none => s) style
  (style, com)

/-- one entry of `get_comment_restore_data`, segments.py:961-981 -/
structure RestoreEntry where
  start : Nat
  stop : Nat
  styles : Bytes
  /-- `items[i]` for `i` in `range(start, end)` -/
  items : List (Nat × Option String)
deriving Repr, DecidableEq

/-- raw indexes of the positions `s … e-1` of a view (the loop `for i in range(start, end)` with `get_raw_index(i)`) -/
def rawIndexes (v : SegView) (s e : Nat) : Except Err (List Nat) := (List.range' s (e - s)).mapM v.rawIndex

/-- `get_comment_restore_data`, segments.py:961-981 -/
def getRestoreData (v : SegView) (style : Bytes) (com : Comments) : List (Nat × Nat) → Except Err (List RestoreEntry)
  | [] => .ok []
  | (s, e) :: rest =>
    match rawIndexes v s e with
    | .error e => .error e
    | .ok ps =>
      match getRestoreData v style com rest with
      | .error e => .error e
      | .ok l => .ok (⟨s, e, slice (v.read style) s e, ps.map fun p => (p, dictGet com p)⟩ :: l)

/-- the inner loop of `restore_comments`, segments.py:989-1001: an empty comment counts as none -/
def restoreItems (com : Comments) (items : List (Nat × Option String)) : Comments :=
  items.foldl (fun d it =>
    match it.2 with
    | some t => if t = "" then dictDel d it.1 else dictSet d it.1 t
    | none => dictDel d it.1) com

/-- `arr[s:e] = vals` through a view (`ValueError` if the lengths differ) -/
def SegView.setRange (v : SegView) (a : Bytes) (s e : Nat) (vals : Bytes) : Except Err Bytes :=
  let ps := match v with
    | .whole n => slice (List.range n) s e
    | .part _ off len => slice (List.range' off len) s e
    | .order _ idx => slice idx s e
  if vals.length = ps.length then .ok (setAll a ps vals) else .error .valueError

/-- `restore_comments`, segments.py:983-1001 -/
def restoreComments (v : SegView) : List RestoreEntry → Bytes → Comments → Except Err (Bytes × Comments)
  | [], style, com => .ok (style, com)
  | r :: rest, style, com =>
    match v.setRange style r.start r.stop r.styles with
    | .error e => .error e
    | .ok style => restoreComments v rest style (restoreItems com r.items)

/-- `set_comment_at`, segments.py:1018-1020 -/
def setCommentAt (v : SegView) (com : Comments) (i : Nat) (t : String) : Except Err Comments :=
  match v.rawIndex i with
  | .error e => .error e
  | .ok p => .ok (dictSet com p t)

/-- `get_comment`, segments.py:1027-1029 -/
def getComment (v : SegView) (com : Comments) (i : Nat) : Except Err String :=
  match v.rawIndex i with
  | .error e => .error e
  | .ok p => .ok ((dictGet com p).getD "")

/-- `set_comment`, segments.py:1022-1025: the text goes to the start of every range -/
def setComment (v : SegView) (style : Bytes) (com : Comments) (ranges : List (Nat × Nat)) (t : String) : Except Err (Bytes × Comments) :=
  match ranges.foldl (fun (acc : Except Err Comments) r => match acc with
    | .error e => .error e
    | .ok d => setCommentAt v d r.1 t) (.ok com) with
  | .error e => .error e
  | .ok com => .ok (setStyleRanges v style ranges { comment := true }, com)

/-- `remove_comment`, segments.py:1031-1036 -/
def removeComment (v : SegView) (com : Comments) (i : Nat) : Except Err Comments :=
  match v.rawIndex i with
  | .error e => .error e
  | .ok p => .ok (dictDel com p)

/-- `clear_comment`, segments.py:1043-1049 -/
def clearComment (v : SegView) (style : Bytes) (com : Comments) (ranges : List (Nat × Nat)) : Except Err (Bytes × Comments) :=
  match ranges.foldl (fun (acc : Except Err Comments) r => match acc with
    | .error e => .error e
    | .ok d => match rawIndexes v r.1 r.2 with
      | .error e => .error e
      | .ok ps => .ok (ps.foldl dictDel d)) (.ok com) with
  | .error e => .error e
  | .ok com => .ok (clearStyleRanges v style ranges { comment := true }, com)

/-! ### Comparing -/

/-- `compare_segment`, segments.py:1083-1088, for segments that are not `OrderWrapper`s, over base style `style`; `d` and `o`
are the bytes of this and the other segment.  NumPy: arrays of different lengths (neither of length one) compare as the
single value `True`, so every position is marked, and `len(diff)` in the log call raises `TypeError` afterwards; an array of
length one is broadcast. -/
def compareSegment (v : SegView) (style : Bytes) (d o : Bytes) : Except Err Unit × Bytes :=
  let s := v.modRange style 0 v.len (· &&& styleMask { diff := true })
  if d.length = o.length then
    (.ok (), v.modAt s ((List.range d.length).filter fun i => d[i]? ≠ o[i]?) (· ||| 0x10))
  else if o.length = 1 then
    (.ok (), v.modAt s ((List.range d.length).filter fun i => d[i]? ≠ o[0]?) (· ||| 0x10))
  else if d.length = 1 then (.error .valueError, s)
  else (.error .typeError, v.modRange s 0 v.len (· ||| 0x10))

/-- `compare_segment`, segments.py:1083-1088, for a segment that is an `OrderWrapper` with the positions `idx`: `OrderWrapper`
(segments.py:83-132) has no `__ne__`, `__or__` or `__ior__`.  Against a plain array NumPy's reflected operators convert it to an array,
so `self.style |= …` binds `self.style` to a new array and stores nothing in the base array.  Two different `OrderWrapper`s compare as
the single value `True`, and `len(diff)` raises `TypeError`.  The result is the base style and the new `self.style`. -/
def compareReordered (idx : List Nat) (style d o : Bytes) (otherReordered : Bool) : Except Err Unit × Bytes × Bytes :=
  let s := modBase style idx (· &&& styleMask { diff := true })
  let t := idx.map fun p => s.getD p 0
  let bit (ne : Bool) : UInt8 := if ne then 0x10 else 0
  if otherReordered then (.error .typeError, s, t.map (· ||| 0x10))
  else if d.length = o.length then (.ok (), s, (t.zip (d.zip o)).map fun q => q.1 ||| bit (q.2.1 != q.2.2))
  else if o.length = 1 then (.ok (), s, (t.zip d).map fun q => q.1 ||| bit (q.2 != o.headD 0))
  else if d.length = 1 then (.ok (), s, o.map fun x => t.headD 0 ||| bit (d.headD 0 != x))
  else (.error .typeError, s, t.map (· ||| 0x10))

end Atr
