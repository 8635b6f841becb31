import Verif.Lemmas.AtariMounted
/-! # Single density disks with one directory entry, as concrete witnesses -/
namespace Atr

/-- single density disk: blank VTOC, one directory entry, `rest` from sector 369 on -/
def sdOne (ent rest : Bytes) : Bytes := diskImage sdHeader (16 + 359 * 128) 128 (ent ++ (List.replicate 1008 0 ++ rest))

theorem sdOne_scans {ent rest : Bytes} (he : ent.length = 16) (hr : rest.length = 352 * 128) {d : ADirent}
    (hp : ADirent.parse sdH 0 ent = .ok d) (hu : d.inUse = true) : Scans sdH (sdOne ent rest) [d] := by
  have hlen : (ent ++ (List.replicate 1008 0 ++ rest)).length = 360 * 128 := by
    rw [List.length_append, List.length_append, List.length_replicate, he, hr]
  have hpos : sdH.dpos 360 = 16 + 359 * 128 := by decide
  have hdir : slice (sdOne ent rest) (sdH.dpos 361) (sdH.dpos 361 + 8 * sdH.sectorSize) = ent ++ List.replicate 1008 0 := by
    rw [sdOne, disk_dir (hdr := sdHeader) (pos := 16 + 359 * 128) (ss := 128) (h := sdH) rfl (by omega) (by omega) rfl hpos (by decide)]
    rw [← List.append_assoc, List.take_left' (by rw [List.length_append, List.length_replicate, he])]
  refine ⟨sdImage_opens hlen, Or.inl rfl, by decide, fun h => absurd h (by decide), Or.inr ?_, ?_⟩
  · rw [sdOne, disk_sec (hdr := sdHeader) (pos := 16 + 359 * 128) (ss := 128) (h := sdH) rfl (by omega) (by omega) rfl hpos]; rfl
  · unfold rawEntries
    rw [hdir, chunks_append 16 (by omega) _ _ he]
    have hz := chunks_replicate_mem 16 1008 (by omega) (by decide)
    generalize chunks 16 (List.replicate 1008 (0 : UInt8)) = R at hz ⊢
    have := scanDir_append sdH [ent] [d] 0 R rfl
      (by
        intro i r e h1 h2
        cases i with
        | zero => simp at h1 h2; subst h1; subst h2; exact ⟨hp, Or.inl hu⟩
        | succ i => simp at h1)
      (fun e he => hz e (List.mem_of_head? he))
    exact this

theorem get_mid (A B C rest : Bytes) (n : Nat) :
    (A ++ (B ++ (C ++ rest)))[A.length + B.length + C.length + n]? = rest[n]? := by
  rw [List.getElem?_append_right (by omega), List.getElem?_append_right (by omega), List.getElem?_append_right (by omega)]
  congr 1; omega

/-- sectors 369 and up -/
theorem sdOne_sec {ent rest : Bytes} (he : ent.length = 16) (k : Nat) :
    sec sdH (sdOne ent rest) (369 + k) = slice rest (k * 128) (k * 128 + 128) := by
  have hd : sdH.dpos (369 + k) = 16 + 368 * 128 + k * 128 := dpos_add sdH 369 k (by decide)
  have hl1 : (sdHeader ++ List.replicate (16 + 359 * 128 - 16) (0 : UInt8)).length = 16 + 359 * 128 := by
    rw [List.length_append, List.length_replicate]; rfl
  have hl2 : (blankVtoc ++ List.replicate (128 - 100) (0 : UInt8)).length = 128 := by
    rw [List.length_append, List.length_replicate, blankVtoc_length]
  have hl3 : (ent ++ List.replicate 1008 (0 : UInt8)).length = 1024 := by
    rw [List.length_append, List.length_replicate, he]
  unfold sec sdOne diskImage
  rw [hd, ← List.append_assoc ent, show sdH.sectorSize = 128 from rfl]
  generalize sdHeader ++ List.replicate (16 + 359 * 128 - 16) (0 : UInt8) = A at *
  generalize blankVtoc ++ List.replicate (128 - 100) (0 : UInt8) = B at *
  generalize ent ++ List.replicate 1008 (0 : UInt8) = C at *
  rw [show 16 + 368 * 128 + k * 128 = A.length + 1152 + k * 128 by omega]
  clear hl1 hd
  rw [show A.length + 1152 + k * 128 = A.length + B.length + C.length + k * 128 by omega]
  clear hl2 hl3
  apply List.ext_getElem?
  intro j
  rw [getElem?_slice, getElem?_slice, show A.length + B.length + C.length + k * 128 + j = A.length + B.length + C.length + (k * 128 + j) by omega, get_mid]
  by_cases hj : j < 128
  · rw [if_pos (by omega), if_pos (by omega)]
  · rw [if_neg (by omega), if_neg (by omega)]

theorem sdH_data (k : Nat) (hk : k ≤ 351) : sdH.DataSec (369 + k) :=
  ⟨show 0 < 369 + k by omega, show 369 + k ≤ 720 by omega⟩

end Atr
