import Verif.Model.Display
/-!
# What `vtoc` prints: `VTOC.__str__`, `/repo/atrcopy/utils.py:306-312`, and `__init__.py:616-620`
-/
namespace Atr

/-- one row of numpy's `str` of an array of zeros and ones, `[0 1 1]` -/
def bitsText (r : List Bool) : Text := '[' :: (r.map fun x => mark x '1' '0').intersperse ' ' ++ [']']

/-- the lines of numpy's `str` of a two-dimensional array of zeros and ones.  Neither the 720 nor the 560 elements reach numpy's threshold of 1000,
and the rows are shorter than its 75 columns, so nothing is left out and no row is broken. -/
def arrayLines (first : Bool) : List (List Bool) → List Text
  | [] => []
  | [r] => [mark first '[' ' ' :: bitsText r ++ [']']]
  | r :: rs => (mark first '[' ' ' :: bitsText r) :: arrayLines false rs

/-- the lines of `VTOC.__str__`, utils.py:306-312: `label`, `tracks` and `per` are `starting_sector_label`, `tracks_per_disk` and
`sectors_per_track` of the header.  The number of free sectors is that of the whole `sector_map`. -/
def vtocLines (label tracks per : Nat) (map : List Bool) : List Text :=
  (arrayLines true (chunks per (slice map label (tracks * per + label)))).zipIdx.map (fun x => "track ".toList ++ pctZero 2 x.2 ++ ": ".toList ++ x.1) ++
    [" (".toList ++ pctD (map.count true) ++ " free)".toList]

/-- `print(parser.image.get_vtoc_object())`, `__init__.py:617-618`.  Tracks and sectors per track are fixed for each header class, whatever the
size of the image: ataridos.py:410-411, dos33.py:379-380.  See `Image.vtoc` for the other images. -/
def Image.vtocText : Image → Except Err (List Text)
  | .atari m _ => m.getVtocObject.map fun v => vtocLines m.hdr.startingSectorLabel 40 18 v.map
  | .dos33 m _ => m.getVtocMap.map fun v => vtocLines 0 35 16 v
  | .sparta m _ => m.vtocMap.map fun v => vtocLines m.hdr.startingSectorLabel 40 18 v
  | .kboot .. | .boot .. | .disk .. => .error .indexError
  | .cart .. | .mame .. | .rom _ | .xex _ | .bin _ => .error .attributeError

end Atr
