import Verif.Model.SegLines
import Verif.Model.Program
/-!
# What `assemble` prints about its segments with `-v`: `/repo/atrcopy/__init__.py:261-263`, `/repo/atrcopy/segments.py:1237-1245`
-/
namespace Atr

/-- `SegmentList.add_segment` without a name, segments.py:1238-1245, as `__str__` sees the segment -/
def addedSeg (s : Int × Bytes) : LSeg :=
  .plain (pctX 4 s.1 ++ " - ".toList ++ pctX 4 (s.1 + s.2.length) ++ ", size=".toList ++ pctX 4 s.2.length) s.1 s.2.length

/-- `"%s - %04x)" % (str(s)[:-1], s.origin + len(s))`, `__init__.py:263` -/
def asmLine (s : Int × Bytes) : Text := (addedSeg s).line.dropLast ++ " - ".toList ++ pctX 4 (s.1 + s.2.length) ++ ")".toList

/-- lines 261-263 of `assemble_segments`; the messages while the files are read are left out -/
def AsmArgs.printed (W : World) (h : Host) (a : AsmArgs) : Except Err Text :=
  match objFiles W h (a.objs.headD []) with
  | .error e => .error e
  | .ok objs =>
    match assembleSegments h.readText (a.data.headD []) objs a.run with
    | .error e => .error e
    | .ok (segs, _) => .ok (stdout (segs.map asmLine))

end Atr
