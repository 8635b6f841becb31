import Verif.Model.Program
import Verif.Model.Segments
/-! # Saving single segments, and the plug-in for the loader of Omnivore -/
namespace Atr

/-- `SegmentSaver.encode_data`, segments.py:60-66: the bytes the segment shows in the file `a` (`tobytes` of an `OrderWrapper`
gathers them, segments.py:118-119) -/
def saveRaw (v : SegView) (a : Bytes) : Bytes := v.read a

/-- `BSAVESaver.encode_data`, segments.py:69-80.  Stores into an array of `<u2` wrap. -/
def saveBsave (v : SegView) (origin : Int) (a : Bytes) : Bytes :=
  let data := v.read a
  enc16 (origin % 65536).toNat ++ enc16 (data.length % 65536) ++ data

/-- `identify_mime`, omnivore_loader.py:7-27: the parser and the type, or `None`; `none` stands for a file that cannot be read.
The exceptions named in line 17 are caught.  The type is never empty, so line 22 asks whether one was found. -/
def identifyMime (L : Libs) (file : Option Bytes) : Except CErr (Option (Image × Mime)) :=
  match file with
  | none => .ok none
  | some b =>
    match detect L b with
    | .ok r => .ok (some r)
    | .error (.py .unsupportedContainer) | .error (.py .unsupportedDiskImage) | .error (.py .ioError) | .error (.ext .os) => .ok none
    | .error e => .error e

end Atr
