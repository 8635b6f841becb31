import Verif.Lemmas.AtariMore
import Verif.Props.AtariFiles
/-!
# C09, C41, C50, C52: where the claims fail

Each of these properties is false for the code as it is.  The theorems prove for *all* volumes of the given kind what the
code does instead; the parts that do hold are `C09_shred`, `C41_partial`, `C52_partial`.
-/
namespace Atr

/-- **C09 fails for more than 1279 sectors.** The allocation table has 1280 entries; `shred` raises `IndexError` after the
free sectors have been filled. -/
theorem C09_big_images_fail {m : AImg} {ds} (fill : Nat) (hm : Mounted m ds) (hmax : 1280 ≤ m.hdr.maxSectors) :
    ∃ m', AImg.shred fill m = (.error .indexError, m') ∧ AImg.open m'.bytes = .ok m' ∧ m'.bytes.length = m.bytes.length ∧
      (∀ s, IsFree m.hdr m.bytes s → ∀ p n, m.hdr.getPos s = .ok (p, n) →
        slice m'.bytes p (p + n) = List.replicate n (UInt8.ofNat fill)) := by
  obtain ⟨b', w, c', hs⟩ := shred_big hm.2 fill hmax
  rw [← hm.eq] at hs
  have g := hm.2.geom
  refine ⟨_, hs, (mounted_mountRec c').1, w.len, ?_⟩
  intro s hs p n hp
  have d := (hm.2.free s hs).data g
  rw [AHeader.getPos_data g d.1 d.2] at hp
  injection hp with hp; injection hp with hp1 hp2
  subst hp1; subst hp2
  exact w.filled s hs

/-- header of a disk of 2000 sectors of 128 bytes -/
def bigHeader : Bytes := [0x96, 0x02, 0x80, 0x3e, 0x80, 0, 0, 0, 0, 0, 0, 0, 0, 0, 0, 0]
/-- disk of 2000 sectors, otherwise as the single density template -/
def bigDisk : Bytes := blankImage bigHeader (16 + 359 * 128) 128 (1640 * 128)
/-- its header, opened -/
def bigH : AHeader :=
  { imageSize := 256000, sectorSize := 128, payloadBytes := 125, headerOffset := 16, maxSectors := 2000 }

theorem bigDisk_opens : openHeader bigDisk = .ok bigH := by
  have h1 : readHeader bigDisk = { imageSize := 256000, sectorSize := 128, headerOffset := 16 } := by
    unfold readHeader bigDisk blankImage
    rw [slice_disk rfl]
    rfl
  have h2 : bigDisk.length = 256016 := by
    unfold bigDisk blankImage
    rw [diskImage_length rfl (by omega) (by omega), List.length_replicate]
  unfold openHeader
  rw [h1, h2]
  rfl

theorem bigDisk_consistent : Consistent bigH bigDisk [] :=
  blank_consistent rfl bigDisk_opens rfl (Or.inl rfl) rfl (by decide) (by decide) (by decide)

example : ∃ m', AImg.shred 0 (mountRec bigH bigDisk []) = (.error .indexError, m') := by
  obtain ⟨m', h, _⟩ := C09_big_images_fail 0 (mounted_mountRec bigDisk_consistent) (by decide)
  exact ⟨m', h⟩

/-- **C41 fails**: a successful write never updates the reported number of free sectors, although the number of sectors
marked free goes down. -/
theorem C41_count_not_updated {m m' : AImg} {ds} {name data : Bytes} (hm : Mounted m ds) (hc : Canon83 name)
    (hnew : name ∉ m.names) (hslot : m.files.length < 64) (hne : data ≠ [])
    (hw : AImg.writeFile name data m = (.ok (), m')) :
    m'.unused = m.unused ∧ (freePool m'.hdr m'.bytes).length < (freePool m.hdr m.bytes).length := by
  by_cases hk : (pieces m.hdr data).length ≤ (freePool m.hdr m.bytes).length
  · obtain ⟨m1, ds1, L1, L2, order, e, h1, h2, h3, h4, h5, h6, h7, h8, h9, h10, h12, h13, h14⟩ :=
      mounted_write hm hne hc.2 hslot (by rw [hc.1]; exact hnew) hk
    rw [h1] at hw; injection hw with _ hw; subst hw
    refine ⟨(mounted_unused hm h2 h3 h13 h14).1, ?_⟩
    have : 0 < (pieces m.hdr data).length := by
      rw [needed_eq hm, sectorsNeeded]
      have := hm.2.sectorSize
      have : 0 < data.length := List.length_pos_iff.mpr hne
      apply Nat.div_pos <;> omega
    rw [h7, List.length_drop]; omega
  · rw [mounted_full hm (by omega)] at hw
    injection hw with hw _; cases hw

/-- C41 on the blank template disk: the report is right before the write and wrong after it. -/
theorem C41_report_wrong : ∃ m m', (∃ ds, Mounted m ds) ∧ m.unused = (freePool m.hdr m.bytes).length ∧
    AImg.writeFile nameA dataA m = (.ok (), m') ∧ m'.unused ≠ (freePool m'.hdr m'.bytes).length := by
  obtain ⟨m1, _, _, _, h1, _⟩ := two_files
  have hsec := disk_sec (hdr := sdHeader) (pos := 16 + 359 * 128) (ss := 128) (tail := List.replicate (360 * 128) 0) (h := sdH)
    rfl (by omega) (by omega) rfl rfl
  have hun : (mountRec sdH sdDisk []).unused = (freePool sdH sdDisk).length := by
    rw [sdDisk_pool]
    unfold mountRec sdDisk blankImage
    rw [hsec]
    rfl
  refine ⟨_, m1, ⟨_, mounted_sd⟩, hun, h1, ?_⟩
  obtain ⟨k1, k2⟩ := C41_count_not_updated mounted_sd canonA (by decide) (by decide) dataA_ne h1
  rw [k1, hun]
  exact Nat.ne_of_gt k2

/-- in every reachable state the volume keeps its header, the first ten bytes of the VTOC and the second VTOC -/
theorem reach_reserved {m m' : AImg} {ds} (hm : Mounted m ds) (hr : Reach m m') : ∃ ds', Mounted m' ds' ∧ m'.hdr = m.hdr ∧
    slice (sec m'.hdr m'.bytes 360) 0 10 = slice (sec m.hdr m.bytes 360) 0 10 ∧
    (m.hdr.imageSize = 133120 → sec m'.hdr m'.bytes 1024 = sec m.hdr m.bytes 1024) := by
  induction hr with
  | start => exact ⟨ds, hm, rfl, rfl, fun _ => rfl⟩
  | @step m1 op _ ha ih =>
    obtain ⟨ds1, h1, e1, e2, e3⟩ := ih
    cases op with
    | write name data =>
      obtain ⟨a1, a2, a3, a4⟩ := ha
      show ∃ ds', Mounted (AImg.writeFile name data m1).2 ds' ∧ (AImg.writeFile name data m1).2.hdr = m.hdr ∧ _
      by_cases hk : (pieces m1.hdr data).length ≤ (freePool m1.hdr m1.bytes).length
      · obtain ⟨m2, ds2, L1, L2, order, e, h2, h3, h4, _, _, _, _, _, _, _, _, h13, h14⟩ := mounted_write h1 a1 a2 a3 a4 hk
        rw [show Op.run (.write name data) m1 = (.ok (), m2) from h2, h2]
        exact ⟨ds2, h3, h4.trans e1, h13.trans e2, fun h => (h14 (by rw [e1]; exact h)).trans (e3 h)⟩
      · have := mounted_full (name := name) h1 (data := data) (by omega)
        rw [show Op.run (.write name data) m1 = (.error .notEnoughSpace, m1) from this, this]
        exact ⟨ds1, h1, e1, e2, e3⟩
    | delete name =>
      rcases ha with ha | ha
      · obtain ⟨m2, ds2, _, _, _, _, h2, h3, h4, _, _, _, _, h13, h14, _⟩ := mounted_delete h1 ha
        rw [show Op.run (.delete name) m1 = (.ok (), m2) from h2]
        exact ⟨ds2, h3, h4.trans e1, h13.trans e2, fun h => (h14 (by rw [e1]; exact h)).trans (e3 h)⟩
      · rw [show Op.run (.delete name) m1 = (.error .fileNotFound, m1) from mounted_missing h1 (ha ds1 h1.2.dir)]
        exact ⟨ds1, h1, e1, e2, e3⟩
    | shred fill =>
      obtain ⟨m2, h2, h3, h4, _, w⟩ := mounted_shred h1 fill ha
      rw [show Op.run (.shred fill) m1 = (.ok (), m2) from h2]
      have g := h1.2.geom
      have hs : ∀ s, m1.hdr.DataSec s → ¬ IsFree m1.hdr m1.bytes s → sec m1.hdr m2.bytes s = sec m1.hdr m1.bytes s :=
        fun s hd hf => w.sec h1.2 hd hf
      refine ⟨ds1, h3, h4.trans e1, ?_, ?_⟩
      · rw [h4, hs 360 (dataSec_of g (by omega) (by have := h1.2.size; omega)) (fun hf => (h1.2.free _ hf).2.2.2 (Or.inl (by omega)))]
        exact e2
      · intro h
        have h' : m1.hdr.imageSize = 133120 := by rw [e1]; exact h
        rw [h4, hs 1024 (dataSec_of g (by omega) (h1.2.ed h')) (fun hf => (h1.2.free _ hf).2.2.2 (Or.inr ⟨h', rfl⟩))]
        exact e3 h

/-- C41, what holds: the reported numbers are the ones of the initial volume in every reachable state (missing: they
should follow the free map). -/
theorem C41_partial {m m' : AImg} {ds} (hm : Mounted m ds) (hr : Reach m m') : m'.unused = m.unused ∧ m'.total = m.total := by
  obtain ⟨ds', k1, k2, k3, k4⟩ := reach_reserved hm hr
  exact mounted_unused hm k1 k2 k3 k4

example : ∃ m', Reach (mountRec sdH sdDisk []) m' ∧ m'.files.length = 1 ∧ m'.unused = 707 := by
  obtain ⟨m1, _, _, _, h1, _, _, _, _, _, h5, _⟩ := two_files
  have r1 : Reach (mountRec sdH sdDisk []) m1 := by
    have := Reach.step (m := mountRec sdH sdDisk []) (.write nameA dataA) .start
      ⟨dataA_ne, canonA.2, by decide, by rw [canonA.1]; decide⟩
    rw [show (Op.run (.write nameA dataA) (mountRec sdH sdDisk [])) = (.ok (), m1) from h1] at this
    exact this
  refine ⟨m1, r1, ?_, ?_⟩
  · rw [← List.length_map (f := ADirent.filename), ← listing_names, h5]; rfl
  · have hsec := disk_sec (hdr := sdHeader) (pos := 16 + 359 * 128) (ss := 128) (tail := List.replicate (360 * 128) 0) (h := sdH)
      rfl (by omega) (by omega) rfl rfl
    rw [(C41_partial mounted_sd r1).1]
    unfold mountRec sdDisk blankImage
    rw [hsec]
    rfl

/-- **C50 fails**: writing an empty file to any consistent volume with a free directory slot raises `InvalidDiskImage`,
and the image left behind can no longer be opened. -/
theorem C50_empty_write_corrupts {m : AImg} {ds} (name : Bytes) (hm : Mounted m ds) (hslot : m.files.length < 64)
    (hmax : m.hdr.maxSectors < 65535) :
    ∃ m', AImg.writeFile name [] m = (.error .invalidDiskImage, m') ∧ AImg.open m'.bytes = .error .invalidDiskImage := by
  have hidx : getFreeDirent ds < 64 := by
    rw [hm.eq] at hslot
    exact free_slot hslot
  obtain ⟨b', h1, h2⟩ := write_empty hm.2 name hidx hmax
  rw [← hm.eq] at h1
  exact ⟨_, h1, h2⟩

example : ∃ m', AImg.writeFile nameB [] (mountRec sdH sdDisk []) = (.error .invalidDiskImage, m') ∧
    AImg.open m'.bytes = .error .invalidDiskImage :=
  C50_empty_write_corrupts nameB mounted_sd (by decide) (by decide)

/-- **C52 fails**: after a successful delete, deleting the same (no longer live) name succeeds again. -/
theorem C52_second_delete_succeeds {m : AImg} {ds} {name : Bytes} (hm : Mounted m ds) (hl : name ∈ m.names) :
    ∃ m1 m2 ds1, AImg.deleteFile name m = (.ok (), m1) ∧ Mounted m1 ds1 ∧ name ∉ m1.names ∧
      AImg.deleteFile name m1 = (.ok (), m2) ∧ Mounted m2 ds1 := by
  obtain ⟨d, hd, rfl⟩ := List.mem_map.mp hl
  rw [hm.eq] at hd
  obtain ⟨h1, h2⟩ := mem_files.mp hd
  obtain ⟨i, hi⟩ := List.getElem?_of_mem h1
  obtain ⟨b1, b2, ds1, c1, c2, e1, e2, e3⟩ := delete_twice hm.2 hi h2
  rw [← hm.eq] at e1
  exact ⟨_, _, ds1, e1, mounted_mountRec c1, e2, e3, mounted_mountRec c2⟩

example : ∃ m m' : AImg, nameA ∉ m.names ∧ (∃ ds, Mounted m ds) ∧ AImg.deleteFile nameA m = (.ok (), m') := by
  obtain ⟨m1, m2, ds1, ds2, _, _, _, h4, _, _, _, _, _, h9, _⟩ := two_files
  obtain ⟨k1, k2, dsk, _, a2, a3, a4, _⟩ := C52_second_delete_succeeds h4 h9
  exact ⟨k1, k2, a3, ⟨dsk, a2⟩, a4⟩

/-- C52, what holds: a name that no directory entry has, live or deleted, is refused and nothing changes (missing: names
of deleted entries). -/
theorem C52_partial {m : AImg} {ds} {name : Bytes} (hm : Mounted m ds) (hn : ∀ d ∈ ds, d.filename ≠ name) :
    AImg.deleteFile name m = (.error .fileNotFound, m) := mounted_missing hm hn

example : AImg.deleteFile nameA (mountRec sdH sdDisk []) = (.error .fileNotFound, mountRec sdH sdDisk []) :=
  C52_partial mounted_sd (by simp)

end Atr
