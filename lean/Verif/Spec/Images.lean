import Verif.Model.Detect
/-!
# What an image was made from
-/
namespace Atr

/-- The image `i` is what its own format makes of the bytes `raw`. -/
def Opened (L : Libs) (raw : Bytes) : Image → Prop
  | .kboot m _ => openKboot raw = .ok m
  | .sparta m s => SImg.open raw = .ok m ∧ m.segments = .ok s
  | .atari m s => AImg.open raw = .ok m ∧ m.segments = .ok s
  | .boot m s => openBoot raw = .ok m ∧ bootSegments m.hdr m.bytes = .ok s
  | .disk m _ => openDisk raw = .ok m
  | .xex l => parseXex raw = .ok l
  | .cart t _ _ => ∃ c, openCart raw t = .ok c
  | .mame d r => ∃ items, L.zip raw = .ok (some items) ∧ openMame items = .ok (d, r)
  | .dos33 m s => DImg.open raw = .ok m ∧ m.segments = .ok s
  | .bin s => parseBsave raw = .ok s
  | .rom d => d = raw ∧ romCheckSize raw.length = .ok ()

end Atr
