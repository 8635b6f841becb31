import Verif.Model.Py
/-!
# The signatures of the games that are told apart, byte by byte

Every signature is a list of positions in the file with the byte that has to be there.
-/
namespace Atr

/-- all bytes of the signature are there -/
def HasSig (raw : Bytes) (l : List (Nat × UInt8)) : Prop := ∀ q ∈ l, raw[q.1]? = some q.2

/-- The first five bytes are there, and the file ends before the first byte that would be wrong. -/
def CutSig (raw : Bytes) (l : List (Nat × UInt8)) : Prop :=
  ∃ pre q post, l = pre ++ q :: post ∧ 5 ≤ pre.length ∧ HasSig raw pre ∧ raw.length ≤ q.1

instance (raw : Bytes) (l : List (Nat × UInt8)) : Decidable (HasSig raw l) := by unfold HasSig; infer_instance

/-- Getaway!, the public domain disk -/
def sigGetawayPd : List (Nat × UInt8) := [(8, 130), (9, 57), (12, 103), (13, 33), (14, 112), (15, 100)]

/-- Getaway! as an executable -/
def sigGetawayXex : List (Nat × UInt8) := [(0, 255), (1, 255), (2, 128), (3, 42), (4, 255), (5, 138)]

/-- Getaway! as a disk -/
def sigGetaway : List (Nat × UInt8) := [(16, 0), (17, 193), (18, 128), (19, 15), (20, 204), (21, 34), (22, 24), (23, 96), (24, 14)]

/-- the level tester of Omnivore for Jumpman: an ATR image of 90 KB with a JMP, a JSR, an RTS and a fill byte at fixed places -/
def sigTester : List (Nat × UInt8) := [(0, 150), (1, 2), (2, 208), (3, 5), (4, 128), (469, 76), (478, 32), (481, 96), (482, 255)]

/-- Jumpman itself -/
def sigJumpman : List (Nat × UInt8) := [(0, 150), (1, 2), (2, 128), (3, 22), (4, 128), (2127, 76), (2136, 32), (2139, 96), (2140, 255)]

end Atr
