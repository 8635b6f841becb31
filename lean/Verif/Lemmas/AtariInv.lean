import Verif.Spec.Atari
/-! # Consistent volumes: opening, reading, committing -/
namespace Atr

theorem Loose.geom {h b ds} (c : Loose h b ds) : h.Geom b.length := openHeader_geom c.opens

theorem AHeader.Geom.ni {h : AHeader} {n : Nat} (g : h.Geom n) : h.numInitialSectors ≤ 3 := by
  have := g.inits; omega

theorem UserSec.data {h : AHeader} {s n : Nat} (u : UserSec h s) (g : h.Geom n) : h.DataSec s := by
  have := g.ni; exact ⟨by have := u.1; omega, u.2.1⟩

theorem dataSec_of {h : AHeader} {s n : Nat} (g : h.Geom n) (h1 : 4 ≤ s) (h2 : s ≤ h.maxSectors) : h.DataSec s :=
  ⟨by have := g.ni; omega, h2⟩

/-- `openHeader` looks at the first sixteen bytes and the length only -/
theorem openHeader_congr {b b' : Bytes} (hl : b'.length = b.length) (hs : slice b' 0 16 = slice b 0 16) :
    openHeader b' = openHeader b := by
  unfold openHeader readHeader
  rw [hl, hs]

theorem dpos_ge {h : AHeader} {n : Nat} (g : h.Geom n) (hss : h.sectorSize = 128 ∨ h.sectorSize = 256) {s : Nat} (h1 : 4 ≤ s) :
    16 ≤ h.dpos s := by
  have hi := g.inits
  unfold AHeader.dpos
  by_cases h0 : h.numInitialSectors = 0
  · have : 1 * h.sectorSize ≤ (s - 1 - h.numInitialSectors) * h.sectorSize := Nat.mul_le_mul_right _ (by omega)
    omega
  · have : h.numInitialSectors = 3 ∧ h.initialSectorSize = 128 := by omega
    rw [this.1, this.2]; omega

theorem slice_writeAll_front {h : AHeader} : ∀ (ws : List WSector) (b : Bytes), h.Geom b.length → Writable h ws →
    ∀ j, (∀ w ∈ ws, j ≤ h.dpos w.num) → slice (writeAll h b ws) 0 j = slice b 0 j := by
  intro ws
  induction ws with
  | nil => intros; rfl
  | cons w ws ih =>
    intro b g hw j hj
    have h1 := hw w (by simp)
    have := h1.1.fit g
    have hl := length_splice b w.data (h.dpos w.num) (by omega)
    rw [writeAll, ih _ (by rw [hl]; exact g) (fun x hx => hw x (by simp [hx])) j (fun x hx => hj x (by simp [hx]))]
    apply slice_splice_disjoint
    · omega
    · left; exact hj w (by simp)

theorem writeAll_append (h : AHeader) : ∀ (ws ws' : List WSector) (b : Bytes), writeAll h b (ws ++ ws') = writeAll h (writeAll h b ws) ws' := by
  intro ws
  induction ws with
  | nil => intros; rfl
  | cons w ws ih => intro ws' b; simp [writeAll, ih]

/-! ### opening -/

/-- the state of an opened consistent volume -/
def mountRec (h : AHeader) (b : Bytes) (ds : List ADirent) : AImg :=
  let v := sec h b 360
  let x := sec h b 1024
  let un := le16 (v.getD 3 0) (v.getD 4 0)
  { hdr := h, bytes := b, firstVtoc := 360, numVtoc := 1, vtoc2 := if h.imageSize = 133120 then 1024 else 0,
    total := le16 (v.getD 1 0) (v.getD 2 0),
    unused := if h.imageSize = 133120 then (un + le16 (x.getD 122 0) (x.getD 123 0)) % 65536 else un,
    files := ds.filter (·.inUse), allSane := true }

theorem slice_five (l : Bytes) (h : 5 ≤ l.length) : slice l 0 5 = [l.getD 0 0, l.getD 1 0, l.getD 2 0, l.getD 3 0, l.getD 4 0] := by
  match l, h with
  | a :: b :: c :: d :: e :: l, _ => simp [slice]

theorem slice_two (l : Bytes) (i : Nat) (h : i + 2 ≤ l.length) : slice l i (i + 2) = [l.getD i 0, l.getD (i + 1) 0] := by
  apply List.ext_getElem?
  intro k
  rw [getElem?_slice]
  match k with
  | 0 => simp; rw [List.getElem?_eq_getElem (by omega)]; rfl
  | 1 => simp; rw [List.getElem?_eq_getElem (by omega)]; rfl
  | k + 2 => simp; omega

theorem calcVtocCode_ge (m : AImg) : 2 ≤ m.calcVtocCode := by
  unfold AImg.calcVtocCode
  simp only
  generalize (m.total + 80) / (m.hdr.sectorSize * 8) = q
  split
  · split
    · omega
    · omega
  · split <;> omega

theorem Loose.sane {h b ds} (c : Loose h b ds) {d : ADirent} (hd : d ∈ ds) (hu : d.inUse = true) : d.isSane = true := by
  obtain ⟨l, hl, _⟩ := c.chains d hd hu
  unfold ADirent.readChain at hl
  cases hs : d.isSane with
  | true => rfl
  | false => simp [hs] at hl

/-- the part of consistency needed to open a volume -/
structure Scans (h : AHeader) (b : Bytes) (ds : List ADirent) : Prop where
  opens : openHeader b = .ok h
  sectorSize : h.sectorSize = 128 ∨ h.sectorSize = 256
  size : 368 ≤ h.maxSectors
  ed : h.imageSize = 133120 → 1024 ≤ h.maxSectors
  vtocCode : (sec h b 360).head? = some 0 ∨ (sec h b 360).head? = some 2
  dir : scanDir h 0 (rawEntries h b) = .ok ds

theorem Loose.scans {h b ds} (c : Loose h b ds) : Scans h b ds :=
  ⟨c.opens, c.sectorSize, c.size, c.ed, c.vtocCode, c.dir⟩

theorem getMetadata_scan {h b ds} (c : Scans h b ds) {m : AImg} (h1 : m.hdr = h) (h2 : m.bytes = b) (h3 : m.allSane = true)
    (h4 : m.vtoc2 = (if h.imageSize = 133120 then 1024 else 0) ∨ h.imageSize = 133120) :
    AImg.getMetadata m = if (ds.filter (·.inUse)).all (·.isSane) then (.ok (), mountRec h b ds)
      else (.error .invalidDiskImage, { mountRec h b ds with allSane := false }) := by
  have g := openHeader_geom c.opens
  have d360 : h.DataSec 360 := dataSec_of g (by omega) (by have := c.size; omega)
  have hl := length_sec g d360
  have hss := c.sectorSize
  have hcode : ((sec h b 360).getD 0 0).toNat = 0 ∨ ((sec h b 360).getD 0 0).toNat = 2 := by
    have : (sec h b 360).getD 0 0 = (sec h b 360).head?.getD 0 := by
      cases sec h b 360 <;> simp
    rw [this]
    rcases c.vtocCode with hv | hv <;> simp [hv]
  have hvalid : h.sectorIsValid 360 = true := (AHeader.sectorIsValid_iff g 360).mpr ⟨by omega, by have := c.size; omega⟩
  have hv : AImg.getVtoc m = (.ok (), { mountRec h b ds with files := m.files }) := by
    unfold AImg.getVtoc
    rw [h1, h2, getSectors_one g d360, ]
    simp only
    rw [slice_five _ (by omega)]
    simp only [if_pos hcode]
    rw [if_neg (by simp [hvalid])]
    have := calcVtocCode_ge { m with firstVtoc := ((360 : Int) - 1 + 1).toNat, numVtoc := 1 }
    rw [if_neg (by rw [h1, h2] at this; omega)]
    by_cases he : h.imageSize = 133120
    · have d1024 : h.DataSec 1024 := dataSec_of g (by omega) (c.ed he)
      have hl2 := length_sec g d1024
      rw [if_pos he, getSectors_one g d1024]
      simp only
      rw [slice_two _ 122 (by omega)]
      simp [mountRec, he, h3]
    · rw [if_neg he]
      simp [he] at h4
      simp [mountRec, he, h3, h4]
  unfold AImg.getMetadata
  rw [hv]
  simp only
  rw [getDirectory_eq (m := { mountRec h b ds with files := m.files }) g c.size g.ni c.dir]
  cases hall : (ds.filter (·.inUse)).all (·.isSane) <;> simp [mountRec]

theorem Loose.allSane {h b ds} (c : Loose h b ds) : (ds.filter (·.inUse)).all (·.isSane) = true := by
  rw [List.all_eq_true]
  intro d hd
  rw [List.mem_filter] at hd
  exact c.sane hd.1 (by simpa using hd.2)

theorem getMetadata_eq {h b ds} (c : Loose h b ds) {m : AImg} (h1 : m.hdr = h) (h2 : m.bytes = b) (h3 : m.allSane = true)
    (h4 : m.vtoc2 = (if h.imageSize = 133120 then 1024 else 0) ∨ h.imageSize = 133120) :
    AImg.getMetadata m = (.ok (), mountRec h b ds) := by
  rw [getMetadata_scan c.scans h1 h2 h3 h4, if_pos c.allSane]

theorem open_scan {h b ds} (c : Scans h b ds) : AImg.open b =
    if (ds.filter (·.inUse)).all (·.isSane) then .ok (mountRec h b ds) else .error .invalidDiskImage := by
  unfold AImg.open
  rw [c.opens]
  simp only
  rw [getMetadata_scan c rfl rfl rfl]
  · cases (ds.filter (·.inUse)).all (·.isSane) <;> simp
  · by_cases he : h.imageSize = 133120
    · exact Or.inr he
    · left; simp [he]

theorem open_eq {h b ds} (c : Loose h b ds) : AImg.open b = .ok (mountRec h b ds) := by
  unfold AImg.open
  rw [c.opens]
  simp only
  rw [getMetadata_eq c rfl rfl rfl]
  by_cases he : h.imageSize = 133120
  · exact Or.inr he
  · left; simp [he]

theorem mounted_iff {m : AImg} {ds} : Mounted m ds ↔ Consistent m.hdr m.bytes ds ∧ m = mountRec m.hdr m.bytes ds := by
  constructor
  · rintro ⟨h1, h2⟩
    rw [open_eq h2.toLoose] at h1
    injection h1 with h1
    exact ⟨h2, h1.symm⟩
  · rintro ⟨h1, h2⟩
    exact ⟨by rw [open_eq h1.toLoose, ← h2], h1⟩

theorem mounted_mountRec {h b ds} (c : Consistent h b ds) : Mounted (mountRec h b ds) ds :=
  mounted_iff.mpr ⟨c, rfl⟩

/-! ### reading -/

theorem readChain_ok {d : ADirent} {h : AHeader} {b : Bytes} {l} (hl : d.readChain h b = .ok l) :
    d.isSane = true ∧ ¬ d.startingSector < 0 ∧ d.readLoop h b (h.maxSectors + 1) { cur := d.startingSector.toNat, seen := [] } = .ok l := by
  unfold ADirent.readChain at hl
  cases hs : d.isSane with
  | false => simp [hs] at hl
  | true =>
    simp only [hs, Bool.not_true, Bool.false_eq_true, if_false] at hl
    split at hl
    · simp at hl
    · exact ⟨rfl, by assumption, hl⟩

theorem readChain_frame {d : ADirent} {h : AHeader} {b b' : Bytes} {l} {n : Nat} (g : h.Geom n)
    (hl : d.readChain h b = .ok l) (hd : ∀ x ∈ l, h.DataSec x.1) (hs : ∀ x ∈ l, sec h b' x.1 = sec h b x.1) :
    d.readChain h b' = .ok l := by
  obtain ⟨h1, h2, h3⟩ := readChain_ok hl
  unfold ADirent.readChain
  simp only [h1, Bool.not_true, Bool.false_eq_true, if_false, h2]
  apply readLoop_frame _ _ _ h3
  intro x hx
  rw [getRawBytes_data g (hd x hx), getRawBytes_data g (hd x hx), hs x hx]

/-- contents of a chain -/
def chainBytes (h : AHeader) (b : Bytes) (l : List (Nat × Nat × Nat)) : Bytes :=
  l.flatMap fun x => (sec h b x.1).take x.2.2

theorem getFile_eq {d : ADirent} {h : AHeader} {b : Bytes} {l} (g : h.Geom b.length) (hl : d.readChain h b = .ok l)
    (hd : ∀ x ∈ l, h.DataSec x.1 ∧ x.2.2 ≤ h.sectorSize) (hne : byteOrder l ≠ []) :
    d.getFile h b = .ok (chainBytes h b l) := by
  obtain ⟨_, _, h3⟩ := readChain_ok hl
  have hpos := (readLoop_pos g _ _ _ h3).2
  unfold ADirent.getFile
  rw [hl]
  simp only [hne, if_false]
  rw [gather_flatMap]
  · congr 1
    unfold chainBytes
    rw [List.flatMap_def, List.flatMap_def]
    congr 1
    apply List.map_congr_left
    intro x hx
    rw [hpos x hx (hd x hx).1]
    exact slice_sec (hd x hx).2
  · intro x hx
    rw [hpos x hx (hd x hx).1]
    have := (hd x hx).1.fit g
    have := (hd x hx).2
    omega

theorem getFile_frame {d : ADirent} {h : AHeader} {b b' : Bytes} {l} (g : h.Geom b.length) (hlen : b'.length = b.length)
    (hl : d.readChain h b = .ok l)
    (hd : ∀ x ∈ l, h.DataSec x.1 ∧ x.2.2 ≤ h.sectorSize) (hne : byteOrder l ≠ [])
    (hs : ∀ x ∈ l, sec h b' x.1 = sec h b x.1) :
    d.getFile h b' = d.getFile h b := by
  rw [getFile_eq g hl hd hne, getFile_eq (by rw [hlen]; exact g) (readChain_frame g hl (fun x hx => (hd x hx).1) hs) hd hne]
  congr 1
  unfold chainBytes
  rw [List.flatMap_def, List.flatMap_def]
  congr 1
  apply List.map_congr_left
  intro x hx
  rw [hs x hx]

/-! ### committing VTOC, file sectors and directory -/

/-- everything an operation writes -/
def commit (h : AHeader) (b v1 : Bytes) (sl : List WSector) (s360 : WSector) (dirs : List WSector) : Bytes :=
  writeAll h (splice b (h.dpos 360) v1) (sl ++ [s360] ++ dirs)

structure Committed (h : AHeader) (b b' v1 : Bytes) (sl dirs : List WSector) : Prop where
  len : b'.length = b.length
  front : slice b' 0 16 = slice b 0 16
  vtoc : sec h b' 360 = v1
  file : ∀ w ∈ sl, sec h b' w.num = w.data
  dir : ∀ w ∈ dirs, sec h b' w.num = w.data
  other : ∀ s, h.DataSec s → s ≠ 360 → s ∉ sl.map (·.num) → s ∉ dirs.map (·.num) → sec h b' s = sec h b s

theorem commit_spec {h : AHeader} {b v1 : Bytes} {sl : List WSector} {s360 : WSector} {ws : List WSector}
    (g : h.Geom b.length) (hss : h.sectorSize = 128 ∨ h.sectorSize = 256) (hmax : 368 ≤ h.maxSectors)
    (hv : v1.length = h.sectorSize) (h360 : s360.num = 360 ∧ s360.data = v1)
    (hsl : ∀ w ∈ sl, UserSec h w.num ∧ w.data.length = h.sectorSize) (hnd : (sl.map (·.num)).Nodup)
    (hws : ∀ w ∈ ws, w.data.length = h.sectorSize) (hq : ws.length ≤ 8) :
    Writable h sl ∧ Writable h [s360] ∧ Writable h (numberDirSectors 361 ws) ∧
    Committed h b (commit h b v1 sl s360 (numberDirSectors 361 ws)) v1 sl (numberDirSectors 361 ws) := by
  obtain ⟨hn1, hn2⟩ := numberDirSectors_map ws 361
  have d360 : h.DataSec 360 := dataSec_of g (by omega) (by omega)
  have hfit := d360.fit g
  have hlen1 := length_splice b v1 (h.dpos 360) (by omega)
  have g1 : h.Geom (splice b (h.dpos 360) v1).length := by rw [hlen1]; exact g
  have w1 : Writable h sl := fun w hw => ⟨(hsl w hw).1.data g, (hsl w hw).2⟩
  have w2 : Writable h [s360] := by
    intro w hw; simp at hw; subst hw; rw [h360.1, h360.2]; exact ⟨d360, hv⟩
  have hdn : ∀ w ∈ numberDirSectors 361 ws, 361 ≤ w.num ∧ w.num ≤ 368 := by
    intro w hw
    have : w.num ∈ (numberDirSectors 361 ws).map (·.num) := List.mem_map_of_mem hw
    rw [hn1, List.mem_range'_1] at this; omega
  have w3 : Writable h (numberDirSectors 361 ws) := by
    intro w hw
    have h1 := hdn w hw
    refine ⟨dataSec_of g (by omega) (by omega), ?_⟩
    have : w.data ∈ (numberDirSectors 361 ws).map (·.data) := List.mem_map_of_mem hw
    rw [hn2, List.mem_map] at this
    obtain ⟨w', hw', he⟩ := this
    rw [← he]; exact hws w' hw'
  have wall : Writable h (sl ++ [s360] ++ numberDirSectors 361 ws) := by
    intro w hw
    rcases List.mem_append.mp hw with hw | hw
    · rcases List.mem_append.mp hw with hw | hw
      · exact w1 w hw
      · exact w2 w hw
    · exact w3 w hw
  have hnum : (sl ++ [s360] ++ numberDirSectors 361 ws).map (·.num) = sl.map (·.num) ++ [360] ++ List.range' 361 ws.length := by
    rw [List.map_append, List.map_append, hn1]; simp [h360.1]
  have hnodup : ((sl ++ [s360] ++ numberDirSectors 361 ws).map (·.num)).Nodup := by
    rw [hnum, List.nodup_append, List.nodup_append]
    refine ⟨⟨hnd, by simp, ?_⟩, List.nodup_range', ?_⟩
    · intro a ha c hc
      simp at hc; subst hc
      obtain ⟨w, hw, rfl⟩ := List.mem_map.mp ha
      have := (hsl w hw).1.2.2.2
      omega
    · intro a ha c hc
      rw [List.mem_range'_1] at hc
      rcases List.mem_append.mp ha with ha | ha
      · obtain ⟨w, hw, rfl⟩ := List.mem_map.mp ha
        have := (hsl w hw).1.2.2.2
        omega
      · simp at ha; omega
  refine ⟨w1, w2, w3, ?_, ?_, ?_, ?_, ?_, ?_⟩
  · rw [commit, length_writeAll _ _ g1 wall, hlen1]
  · rw [commit, slice_writeAll_front _ _ g1 wall]
    · apply slice_splice_disjoint
      · omega
      · left; exact dpos_ge g hss (by omega)
    · intro w hw
      apply dpos_ge g hss
      rcases List.mem_append.mp hw with hw | hw
      · rcases List.mem_append.mp hw with hw | hw
        · exact (hsl w hw).1.1
        · simp at hw; subst hw; omega
      · have := hdn w hw; omega
  · have := sec_writeAll_mem _ _ g1 wall hnodup s360 (by simp)
    rw [h360.1, h360.2] at this
    exact this
  · intro w hw
    exact sec_writeAll_mem _ _ g1 wall hnodup w (by simp [hw])
  · intro w hw
    exact sec_writeAll_mem _ _ g1 wall hnodup w (by simp [hw])
  · intro s ds h1 h2 h3
    rw [commit, sec_writeAll_other _ _ g1 wall s ds]
    · exact sec_splice_other g ds d360 h1 (by omega)
    · simp only [List.map_append, List.mem_append, not_or]
      exact ⟨⟨h2, by simp [h360.1, h1]⟩, h3⟩

/-! ### the VTOC object -/

theorem length_freeMap {h : AHeader} {b : Bytes} (g : h.Geom b.length) (hss : h.sectorSize = 128 ∨ h.sectorSize = 256)
    (hmax : 368 ≤ h.maxSectors) : (freeMap h b).length = 720 := by
  have d360 : h.DataSec 360 := dataSec_of g (by omega) (by omega)
  have hl := length_sec g d360
  rw [freeMap, length_unpackbits, length_slice]
  omega

theorem getVtocObject_eq {h b ds} (c : Loose h b ds) : (mountRec h b ds).getVtocObject =
    .ok { view := ⟨h.dpos 360, h.sectorSize⟩, map := freeMap h b ++ List.replicate 560 false } := by
  have g := c.geom
  have d360 : h.DataSec 360 := dataSec_of g (by omega) (by have := c.size; omega)
  have hm := length_freeMap g c.sectorSize c.size
  unfold AImg.getVtocObject
  have e1 : (mountRec h b ds).hdr.getContiguous (mountRec h b ds).firstVtoc (mountRec h b ds).numVtoc.toNat =
      .ok (h.dpos 360, h.sectorSize) := getContiguous_one g d360
  rw [e1]
  simp only
  have e2 : ∃ q, (if (mountRec h b ds).vtoc2 > 0 then (mountRec h b ds).hdr.getContiguous (mountRec h b ds).vtoc2 1 else Except.ok (0, 0)) =
      Except.ok q := by
    by_cases he : h.imageSize = 133120
    · have d1024 : h.DataSec 1024 := dataSec_of g (by omega) (c.ed he)
      exact ⟨(h.dpos 1024, h.sectorSize), by simp [mountRec, he, getContiguous_one g d1024]⟩
    · exact ⟨(0, 0), by simp [mountRec, he]⟩
  obtain ⟨q, hq⟩ := e2
  rw [hq]
  have hv : View.read ⟨h.dpos 360, h.sectorSize⟩ (mountRec h b ds).bytes = sec h b 360 := rfl
  simp only [hv]
  have : unpackbits (slice (sec h b 360) 10 100) = freeMap h b := rfl
  rw [this, if_pos hm]

/-- new contents of sector 360 -/
def newVtoc (h : AHeader) (b : Bytes) (map : List Bool) : Bytes := splice (sec h b 360) 10 (packbits (map.take 720))

theorem length_newVtoc {h : AHeader} {b : Bytes} {map : List Bool} (hl : (sec h b 360).length = h.sectorSize)
    (hss : h.sectorSize = 128 ∨ h.sectorSize = 256) (hm : map.length = 1280) :
    (newVtoc h b map).length = h.sectorSize := by
  rw [newVtoc, length_splice]
  · exact hl
  · rw [length_packbits]; simp; omega

theorem newVtoc_map {h : AHeader} {b : Bytes} {map : List Bool} (hl : (sec h b 360).length = h.sectorSize)
    (hss : h.sectorSize = 128 ∨ h.sectorSize = 256) (hm : map.length = 1280) :
    unpackbits (slice (newVtoc h b map) 10 100) = map.take 720 ∧ (newVtoc h b map).head? = (sec h b 360).head? := by
  have hp : (packbits (map.take 720)).length = 90 := by
    rw [length_packbits]; simp; omega
  constructor
  · have := slice_splice_same (sec h b 360) (packbits (map.take 720)) 10 (by omega)
    rw [hp] at this
    rw [newVtoc, this, unpackbits_packbits]
    simp; omega
  · rw [newVtoc, splice]
    cases hs : sec h b 360 with
    | nil => simp [hs] at hl; omega
    | cons a l => simp

theorem calcBitmap_eq {h : AHeader} {m : AImg} (hh : m.hdr = h) (g : h.Geom m.bytes.length)
    (hss : h.sectorSize = 128 ∨ h.sectorSize = 256) (hmax : 368 ≤ h.maxSectors)
    {map : List Bool} (hm : map.length = 1280) : ∃ s360 : WSector, s360.num = 360 ∧ s360.data = newVtoc h m.bytes map ∧
    AImg.calcBitmap { view := ⟨h.dpos 360, h.sectorSize⟩, map := map } m =
      (.ok { view := ⟨h.dpos 360, h.sectorSize⟩, map := map, sectors := [s360] },
       { m with bytes := splice m.bytes (h.dpos 360) (newVtoc h m.bytes map) }) := by
  have d360 : h.DataSec 360 := dataSec_of g (by omega) (by omega)
  have hl := length_sec g d360
  have hn := length_newVtoc hl hss hm
  have hfit := d360.fit g
  have hp : (packbits (map.take 720)).length = 90 := by
    rw [length_packbits]; simp; omega
  have hread : View.read ⟨h.dpos 360, h.sectorSize⟩ m.bytes = sec h m.bytes 360 := rfl
  have ha : assignSlice (sec h m.bytes 360) 10 100 (packbits (map.take 720)) = .ok (newVtoc h m.bytes map) := by
    unfold assignSlice
    rw [if_pos (by omega)]; rfl
  have hread2 : View.read ⟨h.dpos 360, h.sectorSize⟩ (splice m.bytes (h.dpos 360) (newVtoc h m.bytes map)) = newVtoc h m.bytes map :=
    sec_splice_same g d360 hn
  refine ⟨{ WSector.ofData h.sectorSize (newVtoc h m.bytes map) with num := 360 }, rfl, ?_, ?_⟩
  · have := (ofData_data h.sectorSize (newVtoc h m.bytes map) (by omega)).1
    simp [this, hn]
  · unfold AImg.calcBitmap
    simp only [hread, ha, hread2, hh]
    rfl

end Atr
