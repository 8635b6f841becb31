import Verif.Model.Executables
/-!
# Grammar of Atari executables, and memory images

`XexBody pos rest l`: the bytes `rest`, found at file position `pos`, are made of `0xffff` markers and of the segments
`l`, in this order.  Only the last segment may be cut off by the end of the file.
-/
namespace Atr

inductive XexBody : Nat → Bytes → List XSeg → Prop
  /-- end of the file -/
  | done {pos} : XexBody pos [] []
  /-- a marker -/
  | marker {pos rest l} : XexBody (pos + 2) rest l → XexBody pos (0xff :: 0xff :: rest) l
  /-- a complete segment: start address, end address (inclusive), data -/
  | seg {pos s0 s1 e0 e1 d rest l} : le16 s0 s1 ≠ 0xffff → le16 s0 s1 + d.length = le16 e0 e1 + 1 → d ≠ [] →
      XexBody (pos + 4 + d.length) rest l →
      XexBody pos (s0 :: s1 :: e0 :: e1 :: (d ++ rest))
        (⟨if le16 s0 s1 = 0x2e0 then .run else .obj, pos + 4, le16 s0 s1, d⟩ :: l)
  /-- a segment cut off by the end of the file -/
  | cut {pos s0 s1 e0 e1 d} : le16 s0 s1 ≠ 0xffff → le16 s0 s1 ≤ le16 e0 e1 → le16 s0 s1 + d.length < le16 e0 e1 + 1 →
      XexBody pos (s0 :: s1 :: e0 :: e1 :: d) [⟨.incomplete, pos + 4, le16 s0 s1, d⟩]
  /-- a header cut off by the end of the file -/
  | short2 {pos s0 s1} : le16 s0 s1 ≠ 0xffff → XexBody pos [s0, s1] [⟨.short, pos, 0, [s0, s1]⟩]
  | short3 {pos s0 s1 e0} : le16 s0 s1 ≠ 0xffff → XexBody pos [s0, s1, e0] [⟨.short, pos, 0, [s0, s1, e0]⟩]
  /-- a single byte at the end -/
  | odd {pos x} : XexBody pos [x] [⟨.odd, pos, 0, [x]⟩]

/-- byte at address `a`: the last segment of the list that covers `a` decides; zero if there is none -/
def memAt (segs : List Seg) (a : Nat) : UInt8 :=
  match segs.reverse.find? (fun s => s.origin ≤ a && a < s.origin + s.data.length) with
  | some s => s.data.getD (a - s.origin) 0
  | none => 0

end Atr
