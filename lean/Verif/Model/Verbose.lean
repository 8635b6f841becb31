import Verif.Model.SegLines
import Verif.Model.Segments
import Verif.Model.Dos33
import Verif.Model.Display
import Verif.Model.Sparta
/-!
# The long description of a segment: `verbose_info` of the segment classes, `/repo/atrcopy/segments.py`
-/
namespace Atr

/-- what `verbose_info` uses of a segment, by class: `DefaultSegment`, `EmptySegment`, `ObjSegment` and its subclasses, `RawSectorsSegment` and its subclass -/
inductive VKind
  | plain (v : SegView)
  | empty
  | obj (origin : Int) (size dataStart : Nat)
  | sectors (first num size : Nat)
deriving DecidableEq, Repr

/-- a segment as `verbose_info` sees it; `None` is the empty text for `verbose_name` and `error`, which are only tested -/
structure VSeg where
  name : Text
  verboseName : Text := []
  error : Text := []
  kind : VKind
deriving DecidableEq, Repr

/-- `self.verbose_name or self.name`, segments.py:612 -/
def VSeg.title (s : VSeg) : Text := if s.verboseName = [] then s.name else s.verboseName

/-- the text before the error: segments.py:612-616, 1103, 1129-1131, 1163-1168.  An `EmptySegment` shows its name, whatever its verbose name.  `order[0]` of a
reordered segment without bytes is an `IndexError`. -/
def VSeg.body (s : VSeg) : Except Err Text :=
  match s.kind with
  | .plain (.order _ idx) =>
    match idx with
    | [] => .error .indexError
    | p :: _ => .ok (s.title ++ " ($".toList ++ pctX 4 idx.length ++ " bytes) non-contiguous file; file index of first byte: $".toList ++ pctX 4 p)
  | .plain v => .ok (s.title ++ " ($".toList ++ pctX 4 v.len ++ " bytes)".toList)
  | .empty => .ok (s.name ++ " (empty file)".toList)
  | .obj origin size dataStart =>
    .ok (s.title ++ "  address range: $".toList ++ pctX 4 origin ++ "-$".toList ++ pctX 4 (origin + size) ++ " ($".toList ++ pctX 4 size ++
      " bytes), file index of first byte: $".toList ++ pctX 4 dataStart)
  | .sectors first num size =>
    .ok ((if num > 1 then s.title ++ " (sectors ".toList ++ pctD first ++ "-".toList ++ pctD (first + num - 1 : Nat) ++ ")".toList
      else s.title ++ " (sector ".toList ++ pctD first ++ ")".toList) ++ " $".toList ++ pctX 0 size ++ " bytes".toList)

/-- `verbose_info`, segments.py:610-619, 1101-1106, 1127-1134, 1161-1171 -/
def VSeg.info (s : VSeg) : Except Err Text :=
  match s.body with
  | .error e => .error e
  | .ok t => .ok (if s.error = [] then t else t ++ "  error='".toList ++ s.error ++ "'".toList)

/-- the segment of a file with its verbose name, ataridos.py:652-667 within diskimages.py:301-309; the whole image is an array of its own -/
def ADirent.verboseSeg (say : Err → Text) (h : AHeader) (b : Bytes) (d : ADirent) : Except Err VSeg :=
  match d.readChain h b with
  | .error e => if e.isInvalidFile then .ok { name := latin1 d.filename, error := say e, kind := .empty } else .error e
  | .ok l =>
    if byteOrder l = [] then .ok { name := latin1 d.filename, kind := .empty }
    else
      match (SegView.whole b.length).indexed (byteOrder l) with
      | .error e => if e.isInvalidFile then .ok { name := latin1 d.filename, error := say e, kind := .empty } else .error e
      | .ok v => .ok
        { name := latin1 d.filename ++ " ".toList ++ pctD d.numSectors ++ "s@".toList ++ pctD d.startingSector
          verboseName := latin1 d.filename ++ " (".toList ++ pctD d.numSectors ++ " sectors, first@".toList ++ pctD d.startingSector ++ ") ".toList ++ d.extra
          kind := .plain v }

/-- the segment of a DOS 3.3 file with its verbose name, dos33.py:575-597, 211-213, within diskimages.py:301-309.  `dirent.sector_map[0]` is read only when there are
bytes, so there is a first sector. -/
def DDirent.verboseSeg (say : Err → Text) (maxS : Nat) (b : Bytes) (d : DDirent) : Except Err VSeg :=
  match d.getFile maxS b with
  | .error e => if e.isInvalidFile then .ok { name := latin1 d.filename, error := say e, kind := .empty } else .error e
  | .ok data =>
    match d.tsMap maxS b with
    | .error e => .error e
    | .ok (_, map) =>
      if (map.flatMap fun s => slice b (256 * s) (256 * s + 256)) = [] then .ok { name := latin1 d.filename, kind := .empty }
      else .ok
        { name := d.summary ++ " ".toList ++ pctZero 3 d.numSectors ++ " ".toList ++ latin1 d.filename
          verboseName := latin1 d.filename ++ " (".toList ++ pctD d.numSectors ++ " sectors, first@".toList ++ pctD (map.headD 0) ++ ") ".toList ++ d.summary
          kind := .obj (if typeToText33 d.ftype = 'B' then (le16 (data.getD 0 0) (data.getD 1 0) : Int) - 4 else 0) data.length 0 }

/-- the segment of a SpartaDOS file with its verbose name, spartados.py:229-245, within diskimages.py:301-309.  The date of a file without bytes is passed as
its error. -/
def SDirent.verboseSeg (say : Err → Text) (h : AHeader) (b : Bytes) (d : SDirent) : Except Err VSeg :=
  let bad (e : Err) : Except Err VSeg := if e.isInvalidFile then .ok { name := latin1 d.filename, error := say e, kind := .empty } else .error e
  if !d.isSane then bad .invalidDirent
  else
    match spartaMap h b d.startingSector with
    | .error e => bad e
    | .ok map =>
      match spartaRead h b map d.length with
      | .error e => bad e
      | .ok l =>
        if spartaOrder l = [] then .ok { name := latin1 d.filename, error := stampText d.stamp, kind := .empty }
        else
          match (SegView.whole b.length).indexed (spartaOrder l) with
          | .error e => bad e
          | .ok v => .ok
            { name := latin1 d.filename ++ " ".toList ++ pctD d.length ++ "@".toList ++ pctD d.startingSector ++ " ".toList ++ stampText d.stamp
              verboseName := latin1 d.filename ++ " (".toList ++ pctD d.length ++ " bytes, sector map@".toList ++ pctD d.startingSector ++ ") ".toList ++
                d.extra ++ " ".toList ++ stampText d.stamp
              kind := .plain v }

end Atr
