import Verif.Props.DetectAtari
/-!
# C70: the segments shown for an Atari DOS disk

Expected are the ATR header, the raw disk, the boot sectors (as many as byte 1 of sector 1 says), VTOC, directory, and one
segment for each file with the contents of the file.  All are right but the boot sectors: whether they are shown and how many
is read from the VTOC.
-/
namespace Atr

/-- **C70.** Everything but the boot segments: header and raw data together are the file, then come the VTOC sector (two on
enhanced density), the directory sectors, and the files of the listing in order, each with its contents. -/
theorem C70_partial {m : AImg} {ds} (hm : Mounted m ds) : ∃ segs, m.segments = .ok segs ∧
    (segs.filter (fun s => s.name = .header ∨ s.name = .raw)).flatMap (·.data) = m.bytes ∧
    (segs.filter (fun s => s.name = .vtoc)).map (·.data) = [sec m.hdr m.bytes 360] ∧
    (segs.filter (fun s => s.name = .vtoc2)).map (·.data) = (if m.hdr.imageSize = 133120 then [sec m.hdr m.bytes 1024] else []) ∧
    (segs.filter (fun s => s.name = .directory)).map (·.data) = [(List.range' 361 8).flatMap (sec m.hdr m.bytes)] ∧
    (segs.filterMap fun s => match s.name with | .file n => some (n, (.ok s.data : Except Err Bytes)) | _ => none) = m.listing := by
  obtain ⟨fs, h1, h2⟩ := segments_mounted hm
  refine ⟨_, h1, ?_⟩
  have hf : ∀ s ∈ fs, ∃ n, s.name = .file n := by
    intro s hs
    have : (s.name, Except.ok s.data) ∈ fs.map fun s => (s.name, (Except.ok s.data : Except Err Bytes)) := List.mem_map.mpr ⟨s, hs, rfl⟩
    rw [h2] at this
    obtain ⟨x, _, hx⟩ := List.mem_map.mp this
    injection hx with hx _
    exact ⟨x.1, hx.symm⟩
  have hfil : ∀ p : SegName → Bool, (∀ n, p (.file n) = false) → fs.filter (fun s => p s.name) = [] := by
    intro p hp
    rw [List.filter_eq_nil_iff]
    intro s hs
    obtain ⟨n, hn⟩ := hf s hs
    rw [hn, hp n]
    exact Bool.false_ne_true
  have hfm : fs.filterMap (fun s => match s.name with | .file n => some (n, (.ok s.data : Except Err Bytes)) | _ => none) = m.listing := by
    have key : ∀ (fs : List ISeg) (l : List (Bytes × Except Err Bytes)), fs.map (fun s => (s.name, (Except.ok s.data : Except Err Bytes))) = l.map (fun x => (SegName.file x.1, x.2)) →
        fs.filterMap (fun s => match s.name with | .file n => some (n, (.ok s.data : Except Err Bytes)) | _ => none) = l := by
      intro fs
      induction fs with
      | nil => intro l h; cases l with | nil => rfl | cons _ _ => cases h
      | cons s fs ih =>
        intro l h
        cases l with
        | nil => cases h
        | cons x l =>
          rw [List.map_cons, List.map_cons] at h
          injection h with h3 h4
          injection h3 with h5 h6
          rw [List.filterMap_cons, h5]
          simp only
          rw [ih l h4, h6]
    exact key fs m.listing h2
  have e1 := hfil (fun x => decide (x = .header ∨ x = .raw)) (fun n => by simp)
  have e2 := hfil (fun x => decide (x = .vtoc)) (fun n => by simp)
  have e3 := hfil (fun x => decide (x = .vtoc2)) (fun n => by simp)
  have e4 := hfil (fun x => decide (x = .directory)) (fun n => by simp)
  simp only [Bool.decide_or] at e1
  have hsb : shownBoot m.hdr m.bytes = [] ∨ ∃ r1 r2 r3, shownBoot m.hdr m.bytes = [⟨.bootSectors, r1⟩, ⟨.bootHeader, r2⟩, ⟨.bootCode, r3⟩] := by
    unfold shownBoot
    split
    · exact Or.inr ⟨_, _, _, rfl⟩
    · exact Or.inl rfl
  unfold shownVtoc
  rcases hsb with hs | ⟨r1, r2, r3, hs⟩ <;> rw [hs] <;> by_cases hv : m.hdr.imageSize = 133120 <;>
    simp [hv, e1, e2, e3, e4, hfm]

/-- **C70 is false for the boot sectors.** On no disk with VTOC code 2 (the code of all disks formatted by DOS 2) are the boot
sectors shown. -/
theorem C70_no_boot {m : AImg} {ds} (hm : Mounted m ds) (hv : (sec m.hdr m.bytes 360).head? = some 2) :
    ∃ segs, m.segments = .ok segs ∧ ∀ s ∈ segs, s.name ≠ .bootSectors := by
  obtain ⟨fs, h1, h2⟩ := segments_mounted hm
  refine ⟨_, h1, ?_⟩
  have hb : shownBoot m.hdr m.bytes = [] := by
    unfold shownBoot
    refine if_neg ?_
    rw [List.getD_eq_getElem?_getD, ← List.head?_eq_getElem?, hv]
    decide
  intro s hs
  rw [hb] at hs
  simp only [List.mem_append, List.append_nil] at hs
  rcases hs with ((hs | hs) | hs) | hs
  · rcases List.mem_cons.mp hs with rfl | hs
    · exact fun h => by cases h
    · rw [List.mem_singleton.mp hs]
      exact fun h => by cases h
  · unfold shownVtoc at hs
    rcases List.mem_cons.mp hs with rfl | hs
    · exact fun h => by cases h
    · split at hs
      · rw [List.mem_singleton.mp hs]
        exact fun h => by cases h
      · cases hs
  · rw [List.mem_singleton.mp hs]
    exact fun h => by cases h
  · have : (s.name, Except.ok s.data) ∈ fs.map fun s => (s.name, (Except.ok s.data : Except Err Bytes)) := List.mem_map.mpr ⟨s, hs, rfl⟩
    rw [h2] at this
    obtain ⟨x, _, hx⟩ := List.mem_map.mp this
    injection hx with hx _
    rw [← hx]
    exact fun h => by cases h

/-- **C70, the boot sectors as shown.** With VTOC code 0 the first sectors are shown as boot sectors, but their number is the low
byte of the number of sectors of the disk (0 counting as 1), whatever sector 1 says. -/
theorem C70_boot_number {m : AImg} {ds} (hm : Mounted m ds) (hv : (sec m.hdr m.bytes 360).head? = some 0) :
    ∃ segs, m.segments = .ok segs ∧
      (segs.filter (fun s => s.name = .bootSectors)).map (·.data) =
        [slice m.bytes m.hdr.headerOffset (m.hdr.headerOffset + firstBytes m.hdr (max ((sec m.hdr m.bytes 360).getD 1 0).toNat 1))] := by
  obtain ⟨fs, h1, h2⟩ := segments_mounted hm
  refine ⟨_, h1, ?_⟩
  have hf : fs.filter (fun s => decide (s.name = .bootSectors)) = [] := by
    rw [List.filter_eq_nil_iff]
    intro s hs
    have : (s.name, Except.ok s.data) ∈ fs.map fun s => (s.name, (Except.ok s.data : Except Err Bytes)) := List.mem_map.mpr ⟨s, hs, rfl⟩
    rw [h2] at this
    obtain ⟨x, _, hx⟩ := List.mem_map.mp this
    injection hx with hx _
    rw [← hx]
    simp
  have hb : (sec m.hdr m.bytes 360).getD 0 0 = 0 := by
    rw [List.getD_eq_getElem?_getD, ← List.head?_eq_getElem?, hv]
    rfl
  unfold shownBoot
  rw [if_pos hb]
  unfold shownVtoc
  by_cases hv : m.hdr.imageSize = 133120 <;> simp [hv, hf]

theorem sd_vtoc : (sec sdH sdDisk 360).head? = some 2 := by
  unfold sdDisk blankImage
  rw [disk_sec (hdr := sdHeader) (h := sdH) (pos := 16 + 359 * 128) (ss := 128) rfl (by omega) (by omega) rfl rfl]
  rfl

/-- a disk with one file, as found: the file is shown with its contents, the boot sectors are not shown -/
example : ∃ m1 segs, AImg.writeFile nameA dataA (mountRec sdH sdDisk []) = (.ok (), m1) ∧ m1.segments = .ok segs ∧
    (segs.filterMap fun s => match s.name with | .file n => some (n, (.ok s.data : Except Err Bytes)) | _ => none) = [(nameA, .ok dataA)] := by
  obtain ⟨m1, _, _, _, h, h2, _, _, _, _, h5, _⟩ := two_files
  obtain ⟨segs, q1, _, _, _, _, q2⟩ := C70_partial h2
  exact ⟨m1, segs, h, q1, by rw [q2, h5]⟩

example : ∃ segs, (mountRec sdH sdDisk []).segments = .ok segs ∧ ∀ s ∈ segs, s.name ≠ .bootSectors := C70_no_boot mounted_sd sd_vtoc

end Atr
