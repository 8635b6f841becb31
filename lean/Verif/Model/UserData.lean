import Verif.Model.Style
import Verif.Model.Addresses
/-!
# Comments and user data of segments (segments.py:135-140, 577-598, 696-712, 889-960, 1003-1069)

Dictionaries are lists of pairs; all segments of a file share those of the base.  Where a function raises in the middle of a loop the
changes made so far are lost here, while they stay in the code.
-/
namespace Atr

/-- one step of the loop of `get_comments_in_range`, segments.py:1009-1015 -/
def rangeStep (v : SegView) (s e : Nat) (d : Comments) (c : Nat × String) : Comments :=
  match v.indexFromBase c.1 with
  | .error _ => d
  | .ok i => if s ≤ i ∧ i < e then dictSet d i c.2 else d

/-- `get_comments_in_range`, segments.py:1003-1016 -/
def commentsInRange (v : SegView) (com : Comments) (s e : Nat) : Comments := com.foldl (rangeStep v s e) []

/-- `get_first_comment`, segments.py:1038-1041; `reduce` of nothing raises `TypeError` -/
def firstComment (v : SegView) (com : Comments) : List (Nat × Nat) → Except Err String
  | [] => .error .typeError
  | r :: rs => getComment v com (rs.foldl (fun m q => min m q.1) r.1)

/-- `iter_comments_in_segment`, segments.py:1054-1060, run to its end -/
def iterComments (v : SegView) (com : Comments) : Except Err (List (Nat × String)) :=
  match v.rawIndex 0, v.rawIndex v.len with
  | .ok s, .ok e => (com.filter fun c => s ≤ c.1 && c.1 < e).mapM fun c => (v.reverseIndex c.1).map fun i => (i, c.2)
  | .error x, _ => .error x
  | _, .error x => .error x

/-- one step of the loop of `copy_user_data`, segments.py:1068-1069 -/
def copyStep (w : SegView) (offset : Nat) (acc : Except Err Comments) (c : Nat × String) : Except Err Comments :=
  match acc with
  | .error e => .error e
  | .ok d => setCommentAt w d (c.1 + offset) c.2

/-- `copy_user_data`, segments.py:1062-1069: from the comments `src` of the segment `v` to the comments `com` of the segment `w`, which
belong to different files (in one file the dictionary would grow under the iteration) -/
def copyUserData (w : SegView) (com : Comments) (v : SegView) (src : Comments) (offset : Nat) : Except Err Comments :=
  match iterComments v src with
  | .error e => .error e
  | .ok l => l.foldl (copyStep w offset) (.ok com)

/-- `get_comments_at_indexes`, segments.py:946-959: where in the list of indexes there is a comment, and the comments -/
def commentsAtIndexes (v : SegView) (style : Bytes) (com : Comments) (l : List Nat) : Except Err (List Nat × List (Option String)) :=
  if l.all (· < v.len) then
    let s := l.map fun i => (v.read style).getD i 0
    let has := (List.range l.length).filter fun j => s.getD j 0 &&& 0x40 > 0
    match has.mapM fun j => v.rawIndex (l.getD j 0) with
    | .error e => .error e
    | .ok raws => .ok (has, raws.map fun p => dictGet com p)
  else .error .indexError

/-- one step of the loop of `set_comments_at_indexes`, segments.py:935-944 -/
def putStep (v : SegView) (acc : Except Err Comments) (c : Nat × Option String) : Except Err Comments :=
  match acc with
  | .error e => .error e
  | .ok d =>
    match v.rawIndex c.1 with
    | .error e => .error e
    | .ok p => .ok (restoreItems d [(p, c.2)])

/-- `set_comments_at_indexes`, segments.py:933-944: an empty comment counts as none -/
def setCommentsAtIndexes (v : SegView) (com : Comments) (l : List Nat) (cs : List (Option String)) : Except Err Comments :=
  (l.zip cs).foldl (putStep v) (.ok com)

/-- `remove_comments_at_indexes`, segments.py:929-931 -/
def removeCommentsAtIndexes (v : SegView) (com : Comments) (l : List Nat) : Except Err Comments :=
  l.foldl (fun acc i =>
    match acc with
    | .error e => .error e
    | .ok d => removeComment v d i) (.ok com)

/-- `fixup_comments`, segments.py:696-712: the base styles afterwards, also if an exception was raised -/
def fixupComments (style : Bytes) (com : Comments) : Except Err Unit × Bytes :=
  let s := style.map (· &&& styleMask { comment := true })
  if com.all (fun c => c.1 < s.length) then (.ok (), modBase s (com.map (·.1)) (· ||| styleBits { comment := true }))
  else (.error .indexError, s)

/-- `UserExtraData.user_data`, segments.py:138-140: the dictionaries 1 to 6 (`none` for any other number, a `KeyError`) -/
abbrev UserData := Nat → Option (List (Nat × Int))

/-- a new `UserExtraData` -/
def UserData.empty : UserData := fun u => if 1 ≤ u ∧ u < 7 then some [] else none

/-- What `set_user_data` can raise besides `IndexError` -/
inductive UserErr
  | indexError | keyError
deriving DecidableEq, Repr

/-- `user_data[user_index][p] = value` -/
def UserData.put (d : UserData) (u p : Nat) (val : Int) : Except UserErr UserData :=
  match d u with
  | none => .error .keyError
  | some m => .ok fun x => if x = u then some (dictSet m p val) else d x

/-- the body of the inner loop of `set_user_data`, segments.py:892-894 -/
def userStep (v : SegView) (u : Nat) (val : Int) (acc : Except UserErr UserData) (i : Nat) : Except UserErr UserData :=
  match acc with
  | .error e => .error e
  | .ok d =>
    match v.rawIndex i with
    | .error _ => .error .indexError
    | .ok p => d.put u p val

/-- `set_user_data`, segments.py:889-894 -/
def setUserData (v : SegView) (d : UserData) (ranges : List (Nat × Nat)) (u : Nat) (val : Int) : Except UserErr UserData :=
  ranges.foldl (fun acc r => (List.range' r.1 (r.2 - r.1)).foldl (userStep v u val) acc) (.ok d)

/-- `get_user_data`, segments.py:896-901: `KeyError` is caught for the number of the dictionary as well -/
def getUserData (v : SegView) (d : UserData) (i u : Nat) : Except UserErr Int :=
  match v.rawIndex i with
  | .error _ => .error .indexError
  | .ok p => .ok (((d u).bind fun m => dictGet m p).getD 0)

/-- one step of the loop of `get_sorted_user_data`, segments.py:908-917; the second part is `start`, `end`, `current` -/
def sortedStep (st : List ((Nat × Nat) × Int) × Option (Nat × Nat × Int)) (c : Nat × Int) :
    List ((Nat × Nat) × Int) × Option (Nat × Nat × Int) :=
  match st.2 with
  | none => (st.1, some (c.1, c.1 + 1, c.2))
  | some (start, stop, current) =>
    if c.2 ≠ current ∨ c.1 ≠ stop then (st.1 ++ [((start, stop), current)], some (c.1, c.1 + 1, c.2))
    else (st.1, some (start, c.1 + 1, current))

/-- `get_sorted_user_data`, segments.py:903-920, for one dictionary -/
def sortedUserData (m : List (Nat × Int)) : List ((Nat × Nat) × Int) :=
  match (m.foldr insertKey []).foldl sortedStep ([], none) with
  | (l, none) => l
  | (l, some (start, stop, current)) => l ++ [((start, stop), current)]

/-- the entries of a session that only old versions wrote -/
structure OldSession where
  displayLists : List (Nat × Nat)
  userRanges1 : List ((Nat × Nat) × Nat)

/-- `restore_session`, segments.py:584-595: the deprecated keys -/
def restoreOld (v : SegView) (style : Bytes) (d : UserData) (e : OldSession) : Except UserErr (Bytes × UserData) :=
  let style := setStyleRanges v style e.displayLists { data := true, user := 1 }
  match setUserData v d e.displayLists 1 0 with
  | .error x => .error x
  | .ok d => .ok (e.userRanges1.foldl (fun s r => setStyleRanges v s [r.1] { user := r.2 + 2 }) style, d)

end Atr
