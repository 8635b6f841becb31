import Verif.Model.Segments
import Verif.Model.Style
/-!
# Saving a parser with its segments and restoring it: parsers.py:44-67, 84-88, segments.py:471-546

The package's own part of a jsonpickle session: `__getstate__`, `__setstate__`, `reconstruct_raw`, `reconstruct_segments`.  The values of
attributes are left abstract (`V`); jsonpickle itself, which writes the states and creates the objects again without calling `__init__`,
is taken as giving back the states it was given.  A memory map has addresses as keys.
-/
namespace Atr

/-- `base_serializable_attributes`, segments.py:395 -/
def baseAttributes : List String := ["origin", "error", "name", "verbose_name", "page_size", "map_width", "uuid", "can_resize"]

/-- what a segment class adds: `extra_serializable_attributes` and `can_resize_default` -/
structure SegClass (V : Type) where
  extra : List String
  canResize : V

/-- names of the attributes that are saved -/
def SegClass.keys {V : Type} (c : SegClass V) : List String := baseAttributes ++ c.extra

/-- A segment object: `__dict__` with the plain attributes in `attrs` and the others apart.  `raw` is the view of `rawdata`, `none` while
the attribute does not exist; `order` is `_order_list`, which may be missing, `None` or a list. -/
structure SegObj (V : Type) where
  attrs : String → Option V
  memoryMap : Option (List (Nat × V))
  bounds : Option (Nat × Nat)
  order : Option (Option (List Nat))
  raw : Option SegView

/-- the dictionary made by `__getstate__`; any entry may be missing in a file written by another version -/
structure SegSaved (V : Type) where
  attrs : String → Option V
  memoryMap : Option (List (Nat × V))
  bounds : Option (Nat × Nat)
  order : Option (Option (List Nat))

/-- `DefaultSegment.__getstate__`, segments.py:471-494 -/
def SegObj.getState {V : Type} (c : SegClass V) (s : SegObj V) : Except Err (SegSaved V) :=
  if !c.keys.all (fun k => (s.attrs k).isSome) then .error .attributeError
  else
    match s.raw with
    | none => .error .attributeError
    | some v =>
      match s.memoryMap with
      | none => .error .attributeError
      | some mm =>
        .ok { attrs := fun k => if k ∈ c.keys then s.attrs k else none
              memoryMap := some (mm.foldr insertKey [])
              bounds := some v.bounds
              order := some v.getState.orderList }

/-- `d[k] = v` on `__dict__` -/
def putAttr {V : Type} (a : String → Option V) (k : String) (v : V) : String → Option V := fun x => if x = k then some v else a x

/-- `restore_renamed_serializable_attributes`, segments.py:518-527 -/
def renameAttrs {V : Type} (a : String → Option V) : String → Option V := fun x =>
  match a "start_addr" with
  | none => a x
  | some v => if x = "start_addr" then none else putAttr a "origin" v x

/-- the attributes after lines 505-508: `uuid` and `can_resize` with their defaults, then everything else of the state -/
def updateAttrs {V : Type} (c : SegClass V) (fresh : V) (a : String → Option V) : String → Option V := fun k =>
  if k = "uuid" then some ((a "uuid").getD fresh)
  else if k = "can_resize" then some ((a "can_resize").getD c.canResize)
  else a k

/-- `DefaultSegment.__setstate__`, segments.py:496-509, on an object without attributes; `fresh` is the value of `uuid()` -/
def SegSaved.setState {V : Type} (c : SegClass V) (fresh : V) (st : SegSaved V) : SegObj V where
  memoryMap := some ((st.memoryMap.getD []).foldl (fun d p => dictSet d p.1 p.2) [])
  attrs := renameAttrs (updateAttrs c fresh st.attrs)
  bounds := st.bounds
  order := st.order
  raw := none

/-- `reconstruct_raw`, segments.py:529-546, with the raw data of the base segment, of length `n`.  The attributes are deleted on the way,
so a failing call leaves the object without them. -/
def SegObj.reconstruct {V : Type} (n : Nat) : Proc (SegObj V) Unit := fun s =>
  match s.bounds with
  | none => (.error .attributeError, s)
  | some (i, j) =>
    let r := (SegView.whole n).slc i j
    let s := { s with bounds := none }
    match s.order with
    | none => (.ok (), { s with raw := some r })
    | some none => (.ok (), { s with raw := some r })
    | some (some []) => (.ok (), { s with raw := some r })
    | some (some (p :: l)) =>
      match r.indexed (p :: l) with
      | .error e => (.error e, s)
      | .ok r => (.ok (), { s with order := none, raw := some r })

/-- A `SegmentParser` with its segments and their classes.  `image` and `data` (`segment_data`) are missing after `__setstate__`. -/
structure ParserObj (V I : Type) where
  segments : List (SegClass V × SegObj V)
  strict : Bool
  image : Option I
  data : Option Bytes

/-- the states of the segments, made one after the other -/
def saveSegments {V : Type} : List (SegClass V × SegObj V) → Except Err (List (SegClass V × SegSaved V))
  | [] => .ok []
  | (c, s) :: l =>
    match s.getState c with
    | .error e => .error e
    | .ok st =>
      match saveSegments l with
      | .error e => .error e
      | .ok sts => .ok ((c, st) :: sts)

/-- `SegmentParser.__getstate__`, parsers.py:44-58 -/
def ParserObj.getState {V I : Type} (p : ParserObj V I) : Except Err (List (SegClass V × SegSaved V) × Bool) :=
  match saveSegments p.segments with
  | .error e => .error e
  | .ok sts => .ok (sts, p.strict)

/-- `SegmentParser.__setstate__`, parsers.py:60-68; `fresh i` is the value of `uuid()` for the segment number `i` -/
def restoreParser {V I : Type} (fresh : Nat → V) (st : List (SegClass V × SegSaved V) × Bool) : ParserObj V I where
  segments := (List.zipIdx st.1).map fun x => (x.1.1, x.1.2.setState x.1.1 (fresh x.2))
  strict := st.2
  image := none
  data := none

/-- the loop of `reconstruct_segments`, parsers.py:87-88 -/
def reconstructLoop {V : Type} (n : Nat) : Proc (List (SegClass V × SegObj V)) Unit
  | [] => (.ok (), [])
  | (c, s) :: l =>
    match s.reconstruct n with
    | (.error e, s) => (.error e, (c, s) :: l)
    | (.ok _, s) =>
      match reconstructLoop n l with
      | (r, l) => (r, (c, s) :: l)

/-- `reconstruct_segments`, parsers.py:84-88, and `get_image`, 90-92.  `imageType` is `none` for `image_type = None`, which is not
callable.  Neither the checks nor `parse_segments` are run. -/
def ParserObj.reconstruct {V I : Type} (imageType : Option (Bytes → Except Err I)) (b : Bytes) : Proc (ParserObj V I) Unit := fun p =>
  match imageType with
  | none => (.error .typeError, p)
  | some f =>
    match f b with
    | .error e => (.error e, p)
    | .ok im =>
      match reconstructLoop b.length p.segments with
      | (r, l) => (r, { p with segments := l, image := some im, data := some b })

/-- the segment classes, segments.py:391-396, 1112-1117, 1137-1142 (`EmptySegment` adds nothing to the first) -/
def defaultClass {V : Type} (no : V) : SegClass V := ⟨[], no⟩
def objClass {V : Type} (no : V) : SegClass V := ⟨["metadata_start", "data_start"], no⟩
def segmentedClass {V : Type} (yes : V) : SegClass V := ⟨["metadata_start", "data_start"], yes⟩
def sectorsClass {V : Type} (no : V) : SegClass V :=
  ⟨["boot_sector_size", "num_boot_sectors", "page_size", "first_sector", "num_sectors"], no⟩

end Atr
