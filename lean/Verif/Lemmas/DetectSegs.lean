import Verif.Lemmas.Detect
/-! # The segments of a consistent Atari DOS volume -/
namespace Atr

theorem firstBytes_succ {h : AHeader} {n s p l : Nat} (g : h.Geom n) (hp : h.getPos s = .ok (p, l)) : firstBytes h s = firstBytes h (s - 1) + l := by
  obtain ⟨h1, _, h2⟩ := AHeader.getPos_ok g hp
  obtain ⟨s, rfl⟩ : ∃ t, s = t + 1 := ⟨s - 1, by omega⟩
  unfold firstBytes
  rw [Nat.add_sub_cancel]
  rcases g.inits with gi | gi
  · rw [gi.1, if_neg (by decide), if_neg (by decide), Nat.mul_add]
    omega
  · rw [gi.1, if_pos rfl, if_pos rfl]
    rcases h2 with ⟨a, b, c⟩ | ⟨a, b, c, d⟩
    · rw [show s + 1 - 3 = s - 3 + 1 by omega, Nat.mul_add]
      omega
    · rw [show s + 1 - 3 = 0 by omega, show s - 3 = 0 by omega]
      omega

theorem moreSize_first {h : AHeader} {n : Nat} (g : h.Geom n) : ∀ (k s : Nat), s + k ≤ h.maxSectors →
    ∃ r, h.moreSize s k = .ok r ∧ firstBytes h s + r = firstBytes h (s + k) := by
  intro k
  induction k with
  | zero => intro s h2; exact ⟨0, rfl, rfl⟩
  | succ k ih =>
    intro s h2
    obtain ⟨q, l', hq⟩ := AHeader.getPos_isOk g (show 1 ≤ s + 1 by omega) (by omega)
    obtain ⟨r, e1, e2⟩ := ih (s + 1) (by omega)
    refine ⟨l' + r, ?_, ?_⟩
    · unfold AHeader.moreSize
      rw [hq]
      simp only
      rw [e1]
    · rw [firstBytes_succ g hq, Nat.add_sub_cancel] at e2
      rw [show s + (k + 1) = s + 1 + k by omega]
      omega

/-- the first `num` sectors (but at least one) -/
theorem getSectorSlice_first {h : AHeader} {n num : Nat} (g : h.Geom n) (hn : max num 1 ≤ h.maxSectors) :
    h.getSectorSlice 1 num = .ok (h.headerOffset, h.headerOffset + firstBytes h (max num 1)) := by
  obtain ⟨k, hp, _, _⟩ := getPos_first g (by omega)
  obtain ⟨r, e1, e2⟩ := moreSize_first g (num - 1) 1 (by omega)
  unfold AHeader.getSectorSlice
  rw [hp]
  simp only
  rw [e1]
  simp only
  rw [firstBytes_succ g hp] at e2
  have : firstBytes h (1 - 1) = 0 := by unfold firstBytes; simp
  rw [this, show 1 + (num - 1) = max num 1 by omega] at e2
  congr 2
  omega

/-- more sectors than there are -/
theorem moreSize_error {h : AHeader} {n : Nat} (g : h.Geom n) : ∀ (k s : Nat), s ≤ h.maxSectors → h.maxSectors < s + k →
    h.moreSize s k = .error .byteNotInFile := by
  intro k
  induction k with
  | zero => intro s _ _; omega
  | succ k ih =>
    intro s h1 h2
    unfold AHeader.moreSize
    by_cases he : s + 1 ≤ h.maxSectors
    · obtain ⟨q, l', hq⟩ := AHeader.getPos_isOk g (show 1 ≤ s + 1 by omega) he
      rw [hq]
      simp only
      rw [ih (s + 1) he (by omega)]
    · rw [getPos_error g (by omega)]

theorem getSectorSlice_beyond {h : AHeader} {n num : Nat} (g : h.Geom n) (h1 : 1 ≤ h.maxSectors) (hn : h.maxSectors < num) :
    h.getSectorSlice 1 num = .error .byteNotInFile := by
  obtain ⟨k, hp, _, _⟩ := getPos_first g h1
  unfold AHeader.getSectorSlice
  rw [hp]
  simp only
  rw [moreSize_error g (num - 1) 1 h1 (by omega)]

/-- all files of a list that can be read -/
theorem fileSegs_ok {δ : Type} {name : δ → Bytes} {get : δ → Except Err Bytes} {b : Bytes} : ∀ (ds : List δ), (∀ d ∈ ds, ∃ x, get d = .ok x) →
    ∃ ss, fileSegs name get b ds = .ok ss ∧ ss.map (fun s => (s.name, Except.ok s.data)) = ds.map fun d => (.file (name d), get d) := by
  intro ds
  induction ds with
  | nil => intro _; exact ⟨[], rfl, rfl⟩
  | cons d ds ih =>
    intro h
    obtain ⟨x, hx⟩ := h d (List.mem_cons_self ..)
    obtain ⟨ss, e1, e2⟩ := ih fun e he => h e (List.mem_cons_of_mem _ he)
    refine ⟨⟨.file (name d), x⟩ :: ss, ?_, ?_⟩
    · unfold fileSegs
      rw [hx]
      simp only
      rw [e1]
    · rw [List.map_cons, List.map_cons, e2, hx]

theorem getContiguous_go_data {h : AHeader} {n : Nat} (g : h.Geom n) : ∀ (k s start count : Nat), h.numInitialSectors < s → s + k ≤ h.maxSectors + 1 →
    start ≠ 0 → AHeader.getContiguous.go h (List.range' s k) start count = .ok (start, count + k * h.sectorSize) := by
  intro k
  induction k with
  | zero => intro s start count _ _ _; simp [AHeader.getContiguous.go]
  | succ k ih =>
    intro s start count h1 h2 h3
    rw [List.range'_succ]
    unfold AHeader.getContiguous.go
    rw [AHeader.getPos_data g h1 (by omega)]
    simp only
    rw [if_neg h3, ih (s + 1) start _ (by omega) (by omega) h3, Nat.add_mul]
    congr 2
    omega

theorem getContiguous_data {h : AHeader} {n : Nat} (g : h.Geom n) {k s : Nat} (h1 : h.numInitialSectors < s) (h2 : s + (k + 1) ≤ h.maxSectors + 1)
    (h3 : h.dpos s ≠ 0) : h.getContiguous s (k + 1) = .ok (h.dpos s, (k + 1) * h.sectorSize) := by
  unfold AHeader.getContiguous
  rw [List.range'_succ]
  unfold AHeader.getContiguous.go
  rw [AHeader.getPos_data g h1 (by omega)]
  simp only
  rw [if_pos trivial, getContiguous_go_data g k (s + 1) _ _ (by omega) (by omega) h3, Nat.add_mul]
  congr 2
  omega

/-- the boot segments that are shown, if any: read from the wrong sector (360 instead of 1) -/
def shownBoot (h : AHeader) (b : Bytes) : List ISeg :=
  if (sec h b 360).getD 0 0 = 0 then
    let r := slice b h.headerOffset (h.headerOffset + firstBytes h (max ((sec h b 360).getD 1 0).toNat 1))
    [⟨.bootSectors, r⟩, ⟨.bootHeader, r.take 20⟩, ⟨.bootCode, r.drop 20⟩]
  else []

theorem slice_zero (b : Bytes) (n : Nat) : slice b 0 n = b.take n := by
  unfold slice
  rfl

theorem atariBootSegs_eq {h : AHeader} {b : Bytes} (g : h.Geom b.length) (hs : 20 ≤ h.sectorSize) (hm : 360 ≤ h.maxSectors) :
    atariBootSegs h b = .ok (shownBoot h b) := by
  have d : h.DataSec 360 := dataSec_big g (by omega) hm
  have hl := length_sec g d
  unfold atariBootSegs shownBoot
  rw [getSectors_one g d]
  simp only
  unfold viewRecord
  rw [if_neg (by intro h0; rw [h0] at hl; simp only [List.length_nil] at hl; omega), if_neg (by omega)]
  simp only
  have h0 : ((sec h b 360).getD 0 0).toNat = 0 ↔ (sec h b 360).getD 0 0 = 0 := (UInt8.toNat_inj (b := 0))
  by_cases hz : (sec h b 360).getD 0 0 = 0
  · rw [if_pos (h0.mpr hz), if_pos hz]
    unfold bootSegsAt
    have := ((sec h b 360).getD 1 0).toNat_lt
    rw [getSectorSlice_first g (by omega)]
    simp only
    rw [slice_zero]
  · rw [if_neg (fun x => hz (h0.mp x)), if_neg hz]

theorem openHeader_size {b : Bytes} {h : AHeader} (ho : openHeader b = .ok h) (hm : 1 ≤ h.maxSectors) : 0 < h.imageSize := by
  have g := openHeader_geom ho
  have := g.max
  rcases g.inits with gi | gi
  · rw [gi.1, gi.2] at this
    by_cases h0 : h.imageSize = 0
    · rw [h0] at this; simp at this; omega
    · omega
  · omega

theorem baseSegs_eq {n off : Nat} (b : Bytes) (hn : 0 < n) : baseSegs n off b = [⟨.header, b.take off⟩, ⟨.raw, b.drop off⟩] := by
  unfold baseSegs
  rw [if_pos hn, slice_zero]
  rfl

/-- the segments of the VTOC -/
def shownVtoc (h : AHeader) (b : Bytes) : List ISeg :=
  ⟨.vtoc, sec h b 360⟩ :: if h.imageSize = 133120 then [⟨.vtoc2, sec h b 1024⟩] else []

theorem segments_mounted {m : AImg} {ds} (hm : Mounted m ds) : ∃ fs, m.segments =
    .ok ([⟨.header, m.bytes.take m.hdr.headerOffset⟩, ⟨.raw, m.bytes.drop m.hdr.headerOffset⟩] ++ shownBoot m.hdr m.bytes ++
      shownVtoc m.hdr m.bytes ++ [⟨.directory, (List.range' 361 8).flatMap (sec m.hdr m.bytes)⟩] ++ fs) ∧
    fs.map (fun s => (s.name, Except.ok s.data)) = m.listing.map fun x => (.file x.1, x.2) := by
  obtain ⟨c, e⟩ := mounted_iff.mp hm
  have g := c.geom
  have hs := c.sectorSize
  have hx := c.size
  have hed := c.ed
  obtain ⟨fs, f1, f2⟩ := fileSegs_ok (name := ADirent.filename) (get := fun d => d.getFile m.hdr m.bytes) (b := m.bytes) m.files
    (fun d hd => by
      rw [e] at hd
      have := mem_files.mp hd
      exact getFile_live c this.1 this.2)
  refine ⟨fs, ?_, by rw [f2]; unfold AImg.listing; rw [List.map_map]; rfl⟩
  have v1 : m.firstVtoc = 360 := by rw [e]; rfl
  have v2 : m.numVtoc = 1 := by rw [e]; rfl
  have v3 : m.vtoc2 = if m.hdr.imageSize = 133120 then 1024 else 0 := (congrArg AImg.vtoc2 e).trans rfl
  have d360 : m.hdr.DataSec 360 := dataSec_big g (by omega) (by omega)
  have d361 : m.hdr.DataSec 361 := dataSec_big g (by omega) (by omega)
  have hv : atariVtocSegs m = .ok (shownVtoc m.hdr m.bytes) := by
    unfold atariVtocSegs shownVtoc
    rw [v1, v2, v3, show (1 : Int).toNat = 1 from rfl, getContiguous_one g d360]
    simp only
    by_cases he : m.hdr.imageSize = 133120
    · rw [if_pos he, if_pos he, if_pos (by decide), getContiguous_one g (dataSec_big g (by omega) (hed he))]
      rfl
    · rw [if_neg he, if_neg he, if_neg (by decide)]
      rfl
  have hd : atariDirSegs m.hdr m.bytes = .ok [⟨.directory, (List.range' 361 8).flatMap (sec m.hdr m.bytes)⟩] := by
    unfold atariDirSegs
    rw [getContiguous_data g (k := 7) d361.1 (by omega) (by have := dpos_ge g hs (s := 361) (by omega); omega)]
    simp only
    rw [slice_sectors g 8 361 d361.1 (by omega)]
  unfold AImg.segments
  rw [atariBootSegs_eq g (by omega) (by omega), hv, hd, f1, baseSegs_eq _ (openHeader_size c.opens (by omega))]

/-! ### opening fails only with errors of the package -/

theorem getSectors_cases {h : AHeader} {b : Bytes} (g : h.Geom b.length) (s : Nat) : h.getSectors b s s = .error .byteNotInFile ∨
    ∃ d, h.getSectors b s s = .ok d ∧ (d.length = h.sectorSize ∨ d.length = 128) := by
  by_cases hs : 1 ≤ s ∧ s ≤ h.maxSectors
  · right
    obtain ⟨p, k, hp⟩ := AHeader.getPos_isOk g hs.1 hs.2
    have hf := getPos_fits g hp
    obtain ⟨_, _, h1⟩ := AHeader.getPos_ok g hp
    rw [getSectors_one_eq, hp]
    refine ⟨_, rfl, ?_⟩
    rw [length_slice]
    omega
  · left
    exact getSectors_invalid g hs

theorem slice_list5 {d : Bytes} (h : 5 ≤ d.length) : ∃ a b c e f, slice d 0 5 = [a, b, c, e, f] := by
  match d, h with
  | a :: b :: c :: e :: f :: r, _ => exact ⟨a, b, c, e, f, rfl⟩

theorem slice_list2 {d : Bytes} {i : Nat} (h : i + 2 ≤ d.length) : ∃ a b, slice d i (i + 2) = [a, b] := by
  have : (slice d i (i + 2)).length = 2 := by rw [length_slice]; omega
  match slice d i (i + 2), this with
  | [a, b], _ => exact ⟨a, b, rfl⟩

theorem getVtoc_error {m m' : AImg} {e : Err} (g : m.hdr.Geom m.bytes.length) (hs : 124 ≤ m.hdr.sectorSize)
    (h : AImg.getVtoc m = (.error e, m')) : e = .byteNotInFile ∨ e = .invalidDiskImage := by
  unfold AImg.getVtoc at h
  rcases getSectors_cases g 360 with h0 | ⟨d, h0, hd⟩
  · rw [h0] at h
    injection h with h _
    injection h with h
    exact Or.inl h.symm
  · rw [h0] at h
    obtain ⟨a, b, c, x, y, h5⟩ := slice_list5 (d := d) (by omega)
    simp only [h5] at h
    generalize (if a.toNat = 0 ∨ a.toNat = 2 then (1 : Int) else (a.toNat : Int) * 2 - 3) = num at h
    split at h
    · injection h with h _
      injection h with h
      exact Or.inl h.symm
    · split at h
      · injection h with h _
        injection h with h
        exact Or.inr h.symm
      · split at h
        · rcases getSectors_cases g 1024 with h1 | ⟨d1, h1, hd1⟩
          · rw [h1] at h
            injection h with h _
            injection h with h
            exact Or.inl h.symm
          · rw [h1] at h
            obtain ⟨u, v, h6⟩ := slice_list2 (d := d1) (i := 122) (by omega)
            simp only [h6] at h
            cases h
        · cases h

theorem scanDir_whole {h : AHeader} (dir : Bytes) : ∀ num, dir.length % 16 = 0 → ∃ ds, scanDir h num (chunks 16 dir) = .ok ds := by
  induction dir using chunks_induction 16 (by omega) with
  | nil => intro num _; exact ⟨[], rfl⟩
  | step c hc ih =>
    intro num hl
    have h16 : 16 ≤ c.length := by
      have : c.length ≠ 0 := fun h0 => hc (List.length_eq_zero_iff.mp h0)
      omega
    rw [chunks_cons 16 (by omega) c hc, scanDir]
    obtain ⟨d, hd, _⟩ := parse_of_length (h := h) num h16
    rw [hd]
    simp only
    split
    · exact ⟨[], rfl⟩
    · obtain ⟨ds, hds⟩ := ih (num + 1) (by rw [List.length_drop]; omega)
      rw [hds]
      exact ⟨d :: ds, rfl⟩

theorem getSectors_361_error {h : AHeader} {b : Bytes} (g : h.Geom b.length) (hmax : ¬ 368 ≤ h.maxSectors) :
    h.getSectors b 361 368 = .error .byteNotInFile := by
  unfold AHeader.getSectors AHeader.getSectorSlice
  by_cases hs : 361 ≤ h.maxSectors
  · obtain ⟨p, k, hp⟩ := AHeader.getPos_isOk g (s := 361) (by omega) hs
    rw [hp]
    simp only
    rw [moreSize_error g _ _ hs (by omega)]
  · rw [getPos_error g (by omega)]

theorem length_dirBytes {h : AHeader} {b : Bytes} (g : h.Geom b.length) (hmax : 368 ≤ h.maxSectors) : (dirBytes h b).length = 8 * h.sectorSize := by
  have hr := getSectors_range g hmax
  have hd := dataSec_big g (s := 361) (by omega) (by omega)
  have hf := (dataSec_big g (s := 368) (by omega) (by omega)).fit g
  rw [getSectors_eq g hd.1 (by omega) hmax] at hr
  injection hr with hr
  rw [← hr, length_slice]
  have : h.dpos 368 = h.dpos 361 + 7 * h.sectorSize := dpos_add h 361 7 hd.1
  omega

/-- with sectors of an even number of at least 124 bytes, opening as Atari DOS fails only with an error of the package -/
theorem open_error {b : Bytes} {h : AHeader} {e : Err} (ho : openHeader b = .ok h) (hs : 124 ≤ h.sectorSize) (h2 : h.sectorSize % 2 = 0)
    (he : AImg.open b = .error e) : e = .byteNotInFile ∨ e = .invalidDiskImage := by
  have g := openHeader_geom ho
  unfold AImg.open at he
  rw [ho] at he
  simp only at he
  unfold AImg.getMetadata at he
  cases hv : AImg.getVtoc { hdr := h, bytes := b } with
  | mk r m1 =>
    obtain ⟨k1, k2, k3⟩ := getVtoc_keeps hv
    simp only at k1 k2 k3
    rw [hv] at he
    cases r with
    | error e1 =>
      simp only at he
      injection he with he
      subst he
      exact getVtoc_error (m := { hdr := h, bytes := b }) g hs hv
    | ok u =>
      simp only at he
      unfold AImg.getDirectory at he
      rw [k1, k2] at he
      by_cases hmax : 368 ≤ h.maxSectors
      · rw [getSectors_range g hmax] at he
        simp only at he
        obtain ⟨ds, hds⟩ := scanDir_whole (h := h) (dirBytes h b) 0 (by rw [length_dirBytes g hmax]; omega)
        rw [hds] at he
        simp only at he
        generalize (m1.allSane && (ds.filter (·.inUse)).all (·.isSane)) = sane at he
        cases sane with
        | true => cases he
        | false =>
          injection he with he
          exact Or.inr he.symm
      · rw [getSectors_361_error g hmax] at he
        injection he with he
        exact Or.inl he.symm

end Atr
