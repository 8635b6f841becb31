import Verif.Lemmas.Sparta
/-!
# C42: reading SpartaDOS files, and C57: the loop over their sector maps
-/
namespace Atr

theorem sectorBytes_pos {h : AHeader} {b : Bytes} (g : h.Geom b.length) {s : Nat} (h1 : 1 ≤ s) (h2 : s ≤ h.maxSectors) :
    sectorBytes h b s ≠ [] := by
  obtain ⟨p, k, hp⟩ := AHeader.getPos_isOk g h1 h2
  have hf := getPos_fits g hp
  have hk : 0 < k := by
    obtain ⟨_, _, hc⟩ := AHeader.getPos_ok g hp
    rcases hc with ⟨_, _, rfl⟩ | ⟨_, _, rfl, _⟩
    · exact g.ssPos
    · omega
  rw [sectorBytes_eq hp]
  intro hn
  have := congrArg List.length hn
  rw [length_slice] at this
  simp at this; omega

theorem getFile_map {h : AHeader} {b : Bytes} (g : h.Geom b.length) {d : SDirent} (hd : d.isSane = true) {M : List Nat}
    (hM : MapOf h b d.startingSector M) (h0 : d.startingSector ≠ 0) : d.getFile h b =
      match spartaRead h b M d.length with
      | .error e => .error e
      | .ok l => if spartaOrder l = [] then .ok b else gather b (spartaOrder l) := by
  unfold SDirent.getFile
  rw [hd, (spartaMap_ok_iff g _ M).mpr ⟨h0, hM⟩]
  rfl

theorem MapOf.start_ne {h : AHeader} {b : Bytes} {s : Nat} {M : List Nat} (hM : MapOf h b s M) (hne : M ≠ []) : s ≠ 0 := by
  cases hM with
  | nil => exact absurd rfl hne
  | cons hs _ => have := hs.1; omega

/-- result of reading a file whose map has a terminating zero -/
theorem getFile_terminated {h : AHeader} {b : Bytes} (g : h.Geom b.length) {d : SDirent} (hd : d.isSane = true) {P R : List Nat}
    (hM : MapOf h b d.startingSector (P ++ 0 :: R)) (hP : ∀ s ∈ P, 1 ≤ s ∧ s ≤ h.maxSectors) : d.getFile h b =
      .ok (if (P.flatMap (sectorBytes h b)).take d.length.toNat = [] then b
        else (P.flatMap (sectorBytes h b)).take d.length.toNat) := by
  rw [getFile_map g hd hM (hM.start_ne (by simp))]
  obtain ⟨l, l1, l2, l3⟩ := spartaRead_terminated g P R d.length hP
  rw [l1]; simp only
  rw [gather_spartaOrder b l l2, l3]
  by_cases hn : (P.flatMap (sectorBytes h b)).take d.length.toNat = []
  · rw [if_pos hn, if_pos ((spartaOrder_nil l2).mpr (by rw [l3]; exact hn))]
  · rw [if_neg hn, if_neg (fun hh => hn (by rw [← l3]; exact (spartaOrder_nil l2).mp hh))]

/-- **C42, the part that holds.** On every image whose header is accepted, a sane entry with a positive length whose sector
map lists the sectors `P` followed by a zero reads as the contents of those sectors, cut to the length of the file.
Missing from the claim: files whose map holds no zero (`C42_refuted_full_map`), files with holes (`C42_refuted_hole`) and
empty files (`C42_refuted_empty`). -/
theorem C42_read_partial {h : AHeader} {b : Bytes} (ho : openHeader b = .ok h) {d : SDirent} (hd : d.isSane = true)
    {P R : List Nat} (hM : MapOf h b d.startingSector (P ++ 0 :: R)) (hP : ∀ s ∈ P, 1 ≤ s ∧ s ≤ h.maxSectors) (hne : P ≠ [])
    (hl : 0 < d.length) : d.getFile h b = .ok ((P.flatMap (sectorBytes h b)).take d.length.toNat) := by
  have g := openHeader_geom ho
  rw [getFile_terminated g hd hM hP, if_neg]
  rw [List.take_eq_nil_iff]
  rintro (hz | hz)
  · omega
  · match P, hne with
    | s :: P, _ =>
      rw [List.flatMap_cons] at hz
      have hs := hP s (by simp)
      exact sectorBytes_pos g hs.1 hs.2 (List.append_eq_nil_iff.mp hz).1

/-- **C42: which entries can be read.** A sane entry reads without error exactly if its map exists and lists valid sectors up
to a zero. -/
theorem C42_reads_iff {h : AHeader} {b : Bytes} (ho : openHeader b = .ok h) {d : SDirent} (hd : d.isSane = true) :
    (∃ x, d.getFile h b = .ok x) ↔
      ∃ P R, MapOf h b d.startingSector (P ++ 0 :: R) ∧ ∀ s ∈ P, 1 ≤ s ∧ s ≤ h.maxSectors := by
  have g := openHeader_geom ho
  constructor
  · rintro ⟨x, hx⟩
    cases hm : spartaMap h b d.startingSector with
    | error e =>
      unfold SDirent.getFile at hx
      rw [hd, hm] at hx; cases hx
    | ok M =>
      obtain ⟨h0, hM⟩ := (spartaMap_ok_iff g _ M).mp hm
      rw [getFile_map g hd hM h0] at hx
      rcases map_cases h.maxSectors M with ⟨P, R, rfl, hP⟩ | hv | ⟨P, t, R, rfl, hP, ht⟩
      · exact ⟨P, R, hM, hP⟩
      · rw [spartaRead_no_terminator g M _ hv] at hx; cases hx
      · rw [spartaRead_bad g P R t _ hP ht] at hx; cases hx
  · rintro ⟨P, R, hM, hP⟩
    exact ⟨_, getFile_terminated g hd hM hP⟩

/-- **C42 is false for files that fill their map.** If every entry of the map is a valid sector, reading raises
`IndexError`: a file of 62 sectors of 128 bytes (126 of 256) in one map sector, or any multiple, cannot be read. -/
theorem C42_refuted_full_map {h : AHeader} {b : Bytes} (ho : openHeader b = .ok h) {d : SDirent} (hd : d.isSane = true)
    {M : List Nat} (hM : MapOf h b d.startingSector M) (h0 : d.startingSector ≠ 0) (hv : ∀ s ∈ M, 1 ≤ s ∧ s ≤ h.maxSectors) :
    d.getFile h b = .error .indexError := by
  have g := openHeader_geom ho
  rw [getFile_map g hd hM h0, spartaRead_no_terminator g M _ hv]

/-- **C42 is false for files with holes.** A zero inside the map (an unallocated sector) ends the file there: what follows is
never read, even when it belongs to the file. -/
theorem C42_refuted_hole {h : AHeader} {b : Bytes} (ho : openHeader b = .ok h) {d : SDirent} (hd : d.isSane = true)
    {P R : List Nat} (hM : MapOf h b d.startingSector (P ++ 0 :: R)) (hP : ∀ s ∈ P, 1 ≤ s ∧ s ≤ h.maxSectors) (hne : P ≠ [])
    (hl : ((P.flatMap (sectorBytes h b)).length : Int) < d.length) : ∃ x, d.getFile h b = .ok x ∧ (x.length : Int) < d.length := by
  refine ⟨_, C42_read_partial ho hd hM hP hne (by omega), ?_⟩
  rw [List.length_take]; omega

/-- **C42 is false for empty files.** A sane entry with an empty map or a length of zero or less (lengths of 8 MiB and more
are read as negative) reads as the whole image. -/
theorem C42_refuted_empty {h : AHeader} {b : Bytes} (ho : openHeader b = .ok h) {d : SDirent} (hd : d.isSane = true)
    {P R : List Nat} (hM : MapOf h b d.startingSector (P ++ 0 :: R)) (hP : ∀ s ∈ P, 1 ≤ s ∧ s ≤ h.maxSectors)
    (hl : P = [] ∨ d.length ≤ 0) : d.getFile h b = .ok b := by
  rw [getFile_terminated (openHeader_geom ho) hd hM hP, if_pos]
  rcases hl with rfl | hl
  · simp
  · rw [show d.length.toNat = 0 by omega]; rfl

/-- **C57.** Cutting the loop over map sectors off after `max_sectors + 2` steps is exact. -/
theorem C57_map_hang_iff {h : AHeader} {b : Bytes} (ho : openHeader b = .ok h) (s : Nat) :
    spartaMap h b s = .error .hang ↔ s ≠ 0 ∧ ∀ fuel, mapLoop h b fuel s = .error .hang := by
  have g := openHeader_geom ho
  unfold spartaMap
  by_cases h0 : s = 0
  · rw [if_pos h0]; simp [h0]
  · rw [if_neg h0]
    constructor
    · intro hh
      refine ⟨h0, fun fuel => ?_⟩
      rw [mapLoop_hang_iff g] at hh ⊢
      rintro ⟨k, _, e⟩
      exact hh ⟨k, by have := e.bound mapNext_lt; omega, e⟩
    · intro hh; exact hh.2 _

/-- **C57 is false.** A map sector that links to itself makes reading the file run forever. -/
theorem C57_refuted_self_link {h : AHeader} {b : Bytes} (ho : openHeader b = .ok h) {s : Nat} (hs : MapSector h b s)
    (hself : wordAt (sectorBytes h b s) 0 = s) : ∀ fuel, mapLoop h b fuel s = .error .hang := by
  have g := openHeader_geom ho
  intro fuel
  induction fuel with
  | zero => rfl
  | succ fuel ih => rw [mapLoop_step g fuel hs, hself, ih]; rfl

/-- C57, the part that holds: a map whose links lead to a sector map never hangs. -/
theorem C57_map_ends_partial {h : AHeader} {b : Bytes} (ho : openHeader b = .ok h) {s : Nat} {M : List Nat} (h0 : s ≠ 0)
    (hM : MapOf h b s M) : spartaMap h b s = .ok M := (spartaMap_ok_iff (openHeader_geom ho) s M).mpr ⟨h0, hM⟩

/-! ## A disk -/

/-- 128 bytes starting with `l` -/
def sec128 (l : Bytes) : Bytes := l ++ List.replicate (128 - l.length) 0

/-- sectors (counted from 0) of a disk with the root directory in map sector 4 and directory sector 5.  File `A` has its map
in sector 6 and five bytes in sector 7.  File `B` has a map (sector 8) of 62 sectors.  File `C` has a hole after its first
sector (map in sector 9).  File `D` has a map that links to itself (sector 10). -/
def spartaSec (s : Nat) : Bytes :=
  if s = 0 then sec128 ([0, 3, 0, 7, 0, 7, 0x4c, 0, 7, 4, 0, 0xd0, 2, 0, 0, 1, 3, 0, 12, 0, 4, 0] ++ List.replicate 8 0x20 ++ [40, 0x80, 0x20])
  else if s = 3 then sec128 [0, 0, 0, 0, 5, 0]
  else if s = 4 then sec128 (
    [0x28, 0, 0, 115, 0, 0] ++ List.replicate 11 0x4d ++ List.replicate 6 0 ++
    [0x08, 6, 0, 5, 0, 0, 0x41] ++ List.replicate 10 0x20 ++ List.replicate 6 0 ++
    [0x08, 8, 0, 0, 31, 0, 0x42] ++ List.replicate 10 0x20 ++ List.replicate 6 0 ++
    [0x08, 9, 0, 128, 1, 0, 0x43] ++ List.replicate 10 0x20 ++ List.replicate 6 0 ++
    [0x08, 10, 0, 1, 0, 0, 0x44] ++ List.replicate 10 0x20 ++ List.replicate 6 0)
  else if s = 5 then sec128 [0, 0, 0, 0, 7, 0]
  else if s = 6 then sec128 [1, 2, 3, 4, 5, 6]
  else if s = 7 then [0, 0, 0, 0] ++ (List.replicate 62 [7, 0]).flatten
  else if s = 8 then sec128 [0, 0, 0, 0, 7, 0, 0, 0, 7, 0]
  else if s = 9 then sec128 [10, 0, 0, 0, 7, 0]
  else List.replicate 128 0

theorem spartaSec_length (s : Nat) : (spartaSec s).length = 128 := by
  unfold spartaSec
  repeat' split
  all_goals decide +kernel

/-- header of a single density image without ATR header -/
def xfdHeader : AHeader := { imageSize := 92160, payloadBytes := 125, maxSectors := 720 }

theorem openHeader_xfd {b : Bytes} (hl : b.length = 92160) (hp : AHeader.parse (slice b 0 16) = .error .invalidAtrHeader) :
    openHeader b = .ok xfdHeader := by
  unfold openHeader readHeader
  rw [hp]; simp only; rw [hl]; rfl

theorem flatMap128_length {f : Nat → Bytes} (hf : ∀ s, (f s).length = 128) : ∀ l : List Nat, (l.flatMap f).length = 128 * l.length := by
  intro l
  induction l with
  | nil => rfl
  | cons a l ih => rw [List.flatMap_cons, List.length_append, hf, ih, List.length_cons]; omega

theorem flatMap128_drop {f : Nat → Bytes} (hf : ∀ s, (f s).length = 128) : ∀ (k : Nat) (l : List Nat),
    (l.flatMap f).drop (128 * k) = (l.drop k).flatMap f := by
  intro k
  induction k with
  | zero => intro l; rfl
  | succ k ih =>
    intro l
    cases l with
    | nil => simp
    | cons a l =>
      rw [List.flatMap_cons, List.drop_append, List.drop_of_length_le (by rw [hf]; omega), List.nil_append, hf, List.drop_succ_cons,
        show 128 * (k + 1) - 128 = 128 * k by omega, ih]

theorem flatMap128_slice {f : Nat → Bytes} (hf : ∀ s, (f s).length = 128) {n s : Nat} (hs : s < n) :
    slice ((List.range n).flatMap f) (128 * s) (128 * s + 128) = f s := by
  unfold slice
  rw [List.drop_take, flatMap128_drop hf, List.drop_eq_getElem_cons (by simpa using hs), List.flatMap_cons, List.getElem_range,
    show 128 * s + 128 - 128 * s = 128 by omega, List.take_append, List.take_of_length_le (by rw [hf]; omega), hf]
  simp

theorem xfd_sectorBytes {b : Bytes} {s : Nat} (h1 : 1 ≤ s) (h2 : s ≤ 720) :
    sectorBytes xfdHeader b s = slice b (128 * (s - 1)) (128 * (s - 1) + 128) := by
  have hp : xfdHeader.getPos s = .ok (128 * (s - 1), 128) := by
    unfold AHeader.getPos
    have : xfdHeader.sectorIsValid s = true := by
      show (decide (1 ≤ s) && decide (s < 720 + 1)) = true
      rw [Bool.and_eq_true, decide_eq_true_iff, decide_eq_true_iff]; omega
    simp only [this, Bool.not_true, Bool.false_eq_true, if_false, if_neg (show ¬ s ≤ xfdHeader.numInitialSectors from by show ¬ s ≤ 0; omega)]
    show (Except.ok (0 * 0 + (s - 1 - 0) * 128 + 0, 128) : Except Err (Nat × Nat)) = _
    congr 2; omega
  exact sectorBytes_eq hp

/-- the disk -/
def spartaDisk : Bytes := (List.range 720).flatMap spartaSec

/-- the files of the disk -/
def spartaFiles : List SDirent :=
  [ { fileNum := 1, flag := 8, inUse := true, startingSector := 6, basename := [0x41], length := 5, stamp := List.replicate 6 0 },
    { fileNum := 2, flag := 8, inUse := true, startingSector := 8, basename := [0x42], length := 7936, stamp := List.replicate 6 0 },
    { fileNum := 3, flag := 8, inUse := true, startingSector := 9, basename := [0x43], length := 384, stamp := List.replicate 6 0 },
    { fileNum := 4, flag := 8, inUse := true, startingSector := 10, basename := [0x44], length := 1, stamp := List.replicate 6 0 } ]

/-- the first entry of the root directory, with the sector from the boot sector -/
def spartaRoot : SDirent :=
  { flag := 0x28, inUse := true, isDir := true, startingSector := 4, basename := List.replicate 8 0x4d, length := 115, stamp := List.replicate 6 0 }

theorem mapOf_one {h : AHeader} {b d : Bytes} {s : Nat} (h1 : 1 ≤ s ∧ s ≤ h.maxSectors) (hd : sectorBytes h b s = d)
    (h2 : 4 ≤ d.length ∧ d.length % 2 = 0 ∧ wordAt d 0 = 0) {M : List Nat} (hM : mapWords d = M) : MapOf h b s M := by
  have := MapOf.cons (s := s) (M := []) (h := h) (b := b) ⟨h1.1, h1.2, by rw [hd]; exact h2.1, by rw [hd]; exact h2.2.1⟩
    (by rw [hd, h2.2.2]; exact .nil)
  rw [hd, List.append_nil, hM] at this
  exact this

theorem spartaDirectory_eq {h : AHeader} {b raw s : Bytes} {root t p n : Nat} {M : List Nat} {d0 d : SDirent}
    (hmap : spartaMap h b root = .ok (t :: M)) (ht : t ≠ 0) (hraw : h.getRawBytes b t = .ok (raw, p, n))
    (hp : SDirent.parse h 0 (slice raw 0 23) = .ok d0)
    (hd : { d0 with startingSector := root, isSane := ({ d0 with startingSector := root } : SDirent).sanityCheck h } = d)
    (hf : d.getFile h b = .ok s) : spartaDirectory h b root = spartaEntries h s 0 ((d.length.toNat + 22) / 23 - 1) := by
  subst hd
  unfold spartaDirectory
  rw [hmap]; simp only
  rw [if_neg ht, hraw]; simp only
  rw [hp]; simp only
  rw [hf]

/-- what `spartaDisk` looks like, and what opening and reading it gives -/
theorem spartaDisk_facts : ∃ b : Bytes, b.length = 92160 ∧ openHeader b = .ok xfdHeader ∧
    SImg.open b = .ok { hdr := xfdHeader, bytes := b, rootDir := 4, files := spartaFiles } ∧
    (∀ s, 1 ≤ s → s ≤ 720 → sectorBytes xfdHeader b s = spartaSec (s - 1)) := by
  have hl : spartaDisk.length = 92160 := by
    unfold spartaDisk; rw [flatMap128_length spartaSec_length, List.length_range]
  have hs : ∀ s, 1 ≤ s → s ≤ 720 → sectorBytes xfdHeader spartaDisk s = spartaSec (s - 1) := fun s h1 h2 => by
    rw [xfd_sectorBytes h1 h2]; exact flatMap128_slice spartaSec_length (by omega)
  have h0 : slice spartaDisk 0 128 = spartaSec 0 := flatMap128_slice (s := 0) spartaSec_length (by omega)
  generalize spartaDisk = b at hl hs h0
  have ho : openHeader b = .ok xfdHeader := by
    refine openHeader_xfd hl ?_
    have : slice b 0 16 = slice (slice b 0 128) 0 16 := by rw [slice_slice]; rfl
    rw [this, h0]; decide +kernel
  have g := openHeader_geom ho
  refine ⟨b, hl, ho, ?_, hs⟩
  have h5 := hs 5 (by omega) (by omega)
  have hboot : spartaBoot xfdHeader b = .ok 4 := by
    unfold spartaBoot
    rw [getSectors_valid g (by omega) (by decide), hs 1 (by omega) (by omega)]
    decide +kernel
  have hM : MapOf xfdHeader b 4 ([5] ++ 0 :: List.replicate 60 0) :=
    mapOf_one (by decide) (hs 4 (by omega) (by omega)) (by decide +kernel) (by decide +kernel)
  have hmap : spartaMap xfdHeader b 4 = .ok (5 :: 0 :: List.replicate 60 0) := (spartaMap_ok_iff g _ _).mpr ⟨by omega, hM⟩
  have hraw : xfdHeader.getRawBytes b 5 = .ok (spartaSec 4, 512, 128) := by
    unfold AHeader.getRawBytes
    rw [show xfdHeader.getPos 5 = .ok (512, 128) by decide]
    simp only
    rw [← h5, xfd_sectorBytes (by omega) (by omega)]
  have hroot : spartaRoot.getFile xfdHeader b = .ok ((spartaSec 4).take 115) := by
    have := C42_read_partial ho (d := spartaRoot) rfl hM (by decide) (by simp) (by decide)
    rw [this, List.flatMap_cons, List.flatMap_nil, List.append_nil, h5]; rfl
  unfold SImg.open
  rw [ho]; simp only
  rw [hboot]; simp only
  have hdir : spartaDirectory xfdHeader b 4 = .ok spartaFiles := by
    rw [spartaDirectory_eq hmap (by omega) hraw (d := spartaRoot)
      (show SDirent.parse xfdHeader 0 (slice (spartaSec 4) 0 23) = .ok { spartaRoot with startingSector := 0, isSane := false } by decide +kernel)
      (by decide +kernel) hroot]
    decide +kernel
  rw [hdir]

/-- the disk in use: `A` reads as its five bytes, `B` raises `IndexError`, `C` loses the sector after the hole, `D` hangs -/
example : ∃ m : SImg, SImg.open m.bytes = .ok m ∧ m.files = spartaFiles ∧
    m.findFile [0x41] = .ok [1, 2, 3, 4, 5] ∧ m.findFile [0x42] = .error .indexError ∧
    m.findFile [0x43] = .ok (spartaSec 6) ∧ m.findFile [0x44] = .error .hang := by
  obtain ⟨b, hl, ho, hopen, hs⟩ := spartaDisk_facts
  have g := openHeader_geom ho
  refine ⟨{ hdr := xfdHeader, bytes := b, rootDir := 4, files := spartaFiles }, hopen, rfl, ?_, ?_, ?_, ?_⟩
  · have hM : MapOf xfdHeader b 6 ([7] ++ 0 :: List.replicate 60 0) :=
      mapOf_one (by decide) (hs 6 (by omega) (by omega)) (by decide +kernel) (by decide +kernel)
    have := C42_read_partial ho (d := spartaFiles[0]) rfl hM (by decide) (by simp) (by decide)
    rw [List.flatMap_cons, List.flatMap_nil, List.append_nil, hs 7 (by omega) (by omega)] at this
    exact this
  · have hM : MapOf xfdHeader b 8 (List.replicate 62 7) :=
      mapOf_one (by decide) (hs 8 (by omega) (by omega)) (by decide +kernel) (by decide +kernel)
    exact C42_refuted_full_map ho (d := spartaFiles[1]) rfl hM (by decide) (by
      intro s h; rw [List.eq_of_mem_replicate h]; decide)
  · have hM : MapOf xfdHeader b 9 ([7] ++ 0 :: 7 :: List.replicate 59 0) :=
      mapOf_one (by decide) (hs 9 (by omega) (by omega)) (by decide +kernel) (by decide +kernel)
    have := C42_read_partial ho (d := spartaFiles[2]) rfl hM (by decide) (by simp) (by decide)
    rw [List.flatMap_cons, List.flatMap_nil, List.append_nil, hs 7 (by omega) (by omega)] at this
    exact this
  · have h10 := hs 10 (by omega) (by omega)
    have hh := C57_refuted_self_link ho (s := 10) ⟨by omega, by decide, by rw [h10]; decide +kernel, by rw [h10]; decide +kernel⟩
      (by rw [h10]; decide +kernel)
    have hm : spartaMap xfdHeader b 10 = .error .hang := (C57_map_hang_iff ho 10).mpr ⟨by omega, hh⟩
    show SDirent.getFile spartaFiles[3] xfdHeader b = _
    unfold SDirent.getFile
    rw [show spartaFiles[3].isSane = true by decide, show spartaFiles[3].startingSector = 10 by decide, hm]
    rfl

end Atr
