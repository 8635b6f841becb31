import Verif.Spec.Atari25
import Verif.Props.AtariLimits
import Verif.Lemmas.AtariHang
import Verif.Props.AtariRead
/-!
# C109: sectors above 719

The allocation map of `AtariDosVTOC` has the 720 bits of sector 360 only (ataridos.py:34-47).
-/
namespace Atr

/-! ### what an operation leaves alone -/

theorem not_free_high {m : AImg} {ds} (hm : Mounted m ds) {s : Nat} (hs : 720 ≤ s) : ¬ IsFree m.hdr m.bytes s := by
  intro h
  have := length_freeMap hm.2.geom hm.2.sectorSize hm.2.size
  have := (List.getElem?_eq_some_iff.mp h).1
  omega

theorem write_high {m m' : AImg} {ds} (hm : Mounted m ds) {name data : Bytes} (ha : (Op.write name data).Allowed m)
    (hw : (AImg.writeFile name data m).2 = m') {s : Nat} (h1 : 720 ≤ s) (h2 : s ≤ m.hdr.maxSectors) :
    sec m.hdr m'.bytes s = sec m.hdr m.bytes s := by
  obtain ⟨a1, a2, a3, a4⟩ := ha
  by_cases hk : (pieces m.hdr data).length ≤ (freePool m.hdr m.bytes).length
  · have hfr : ∀ d ∈ ds, d.inUse = true → d.filename ≠ norm83 name := by
      intro d hd hu hn
      refine a4 (List.mem_map.mpr ⟨d, ?_, hn⟩)
      rw [hm.eq]; exact mem_files.mpr ⟨hd, hu⟩
    rw [hm.eq] at a3
    obtain ⟨b', order, map', e, w, nf, c', hw', _⟩ := writeFile_ok hm.2 a1 a2 (free_slot a3) hfr hk
    rw [← hm.eq] at hw'
    rw [hw'] at hw
    subst hw
    have g := hm.2.geom
    obtain ⟨und, uall⟩ := w.res.user hm.2.toLoose
    obtain ⟨p1, _⟩ := pieces_props m.hdr data hm.2.sectorSize a1
    have ln := linkSectors_nums hm.2.sectorSize (free_slot a3) (pieces m.hdr data) order w.res.len.symm (fun x hx => (p1 x hx).2)
      (fun n hn => by have := (uall n hn).2.1; omega)
    show sec m.hdr b' s = _
    apply w.comm.other s (dataSec_of g (by omega) h2) (by omega)
    · rw [ln.1]; intro hx; have := (uall _ hx).2.1; omega
    · rw [calcDirSectors, (numberDirSectors_map _ 361).1, List.mem_range'_1]
      have := w.slots; omega
  · rw [mounted_full (name := name) hm (data := data) (by omega)] at hw
    rw [← hw]

theorem delete_high {m m' : AImg} {ds} (hm : Mounted m ds) {name : Bytes} (hl : name ∈ m.names)
    (hw : (AImg.deleteFile name m).2 = m') {s : Nat} (h1 : 720 ≤ s) (h2 : s ≤ m.hdr.maxSectors) :
    sec m.hdr m'.bytes s = sec m.hdr m.bytes s := by
  obtain ⟨d, hd, rfl⟩ := List.mem_map.mp hl
  have hd1 := hd
  rw [hm.eq] at hd
  have hd' := mem_files.mp hd
  obtain ⟨i, hi⟩ := List.getElem?_of_mem hd'.1
  obtain ⟨l, l1, _⟩ := hm.2.chains d hd'.1 hd'.2
  obtain ⟨b', map', w, c', hdel, _⟩ := deleteFile_ok hm.2 hi hd'.2 l1
  rw [← hm.eq] at hdel
  rw [hdel] at hw
  subst hw
  show sec m.hdr b' s = _
  apply w.comm.other s (dataSec_of hm.2.geom (by omega) h2) (by omega)
  · simp
  · rw [calcDirSectors, (numberDirSectors_map _ 361).1, List.mem_range'_1]
    have := w.slots; omega

/-- **C109, what holds.** No history of add, remove and shred commands changes a sector above 719: files there keep their
contents, and so does the second VTOC sector. -/
theorem C109_partial {m m' : AImg} {ds} (hm : Mounted m ds) (hr : Reach m m') {s : Nat} (h1 : 720 ≤ s) (h2 : s ≤ m.hdr.maxSectors) :
    sec m'.hdr m'.bytes s = sec m.hdr m.bytes s := by
  suffices m'.hdr = m.hdr ∧ sec m.hdr m'.bytes s = sec m.hdr m.bytes s by rw [this.1]; exact this.2
  induction hr with
  | start => exact ⟨rfl, rfl⟩
  | @step m1 op hr ha ih =>
    obtain ⟨ds1, hm1, e1, _, _⟩ := reach_reserved hm hr
    obtain ⟨ds2, hm2, e2, _, _⟩ := reach_reserved hm (Reach.step op hr ha)
    refine ⟨e2, ?_⟩
    rw [← ih.2]
    rw [← e1]
    rw [← e1] at h2
    cases op with
    | write name data => exact write_high hm1 ha rfl h1 h2
    | delete name =>
      rcases ha with ha | ha
      · exact delete_high hm1 ha rfl h1 h2
      · rw [show Op.run (.delete name) m1 = (.error .fileNotFound, m1) from mounted_missing hm1 (ha ds1 hm1.2.dir)]
    | shred fill =>
      obtain ⟨m2, k2, _, _, _, w⟩ := mounted_shred hm1 fill ha
      rw [show Op.run (.shred fill) m1 = (.ok (), m2) from k2]
      exact w.sec hm1.2 (dataSec_of hm1.2.geom (by omega) h2) (not_free_high hm1 h1)

/-! ### how much can be stored -/

theorem freePool_bound {m : AImg} {ds} (hm : Mounted m ds) : (freePool m.hdr m.bytes).length ≤ 707 := by
  have hn : (freePool m.hdr m.bytes).Nodup := freeList_nodup _
  have hr : ∀ s ∈ freePool m.hdr m.bytes, 4 ≤ s ∧ s < 720 ∧ ¬ (360 ≤ s ∧ s ≤ 368) := by
    intro s hs
    have hf : IsFree m.hdr m.bytes s := (mem_freeList _ _).mp hs
    have h1 := hm.2.free s hf
    have h2 : s < 720 := Nat.lt_of_not_le fun h => not_free_high hm h hf
    exact ⟨h1.1, h2, fun h => h1.2.2.2 (Or.inl h)⟩
  have := nodup_length_le 707 ((freePool m.hdr m.bytes).map fun s => if s < 360 then s - 4 else s - 13)
    (by
      rw [List.Nodup, List.pairwise_map]
      refine List.Pairwise.imp_of_mem ?_ hn
      intro a b ha hb hab
      have := hr a ha; have := hr b hb
      split <;> split <;> omega)
    (by
      intro x hx
      obtain ⟨s, hs, rfl⟩ := List.mem_map.mp hx
      have := hr s hs
      split <;> omega)
  rw [List.length_map] at this
  exact this

/-- **C109, the limit.** A file of more than 707 sectors is refused, whatever the size of the disk and however much of it is
free. -/
theorem C109_limit {m : AImg} {ds} (hm : Mounted m ds) (name : Bytes) {data : Bytes} (hd : 707 < sectorsNeeded m.hdr data.length) :
    AImg.writeFile name data m = (.error .notEnoughSpace, m) := by
  apply mounted_full hm
  rw [needed_eq hm]
  have := freePool_bound hm
  omega

/-- **C109, all files together**: in every state that can be reached, what is still free, and so what can still be added, is at most
707 sectors, all of them below 720. -/
theorem C109_pool {m m' : AImg} {ds} (hm : Mounted m ds) (hr : Reach m m') :
    (freePool m'.hdr m'.bytes).length ≤ 707 ∧ ∀ s ∈ freePool m'.hdr m'.bytes, s < 720 := by
  obtain ⟨ds', hm'⟩ := reach_mounted hm hr
  exact ⟨freePool_bound hm', fun s hs => Nat.lt_of_not_le fun h => not_free_high hm' h ((mem_freeList _ _).mp hs)⟩

/-- **C109, removing a file**: the sectors above 719 are not given back. -/
theorem C109_not_given_back {m m' : AImg} {ds} {name : Bytes} (hm : Mounted m ds) (he : m.hdr.imageSize = 133120) (hl : name ∈ m.names)
    (hw : AImg.deleteFile name m = (.ok (), m')) {s : Nat} (hs : 720 ≤ s) :
    IsFree25 m'.hdr m'.bytes s ↔ IsFree25 m.hdr m.bytes s := by
  have h2 : m' = (Op.run (.delete name) m).2 := (congrArg Prod.snd hw).symm
  have := C109_partial (m' := m') hm (by rw [h2]; exact Reach.step (.delete name) .start (Or.inl hl)) (s := 1024) (by omega) (hm.2.ed he)
  unfold IsFree25
  rw [if_neg (by omega), if_neg (by omega), this]

/-! ### the entries of files with sectors above 719 -/

/-- **C109, adding a file**: the first entry without the bit 6 is taken for the new file, all others are kept. -/
theorem C109_entry_taken {m m' : AImg} {ds} {name data : Bytes} (hm : Mounted m ds) (hc : Canon83 name) (hnew : name ∉ m.names)
    (hslot : m.files.length < 64) (hne : data ≠ []) (hw : AImg.writeFile name data m = (.ok (), m')) {i : Nat} {d : ADirent}
    (hi : ds[i]? = some d) (hd : d.inUse = false) (hfirst : ∀ (j : Nat) (e : ADirent), j < i → ds[j]? = some e → e.inUse = true) :
    ∃ e, e.filename = name ∧ e.inUse = true ∧ Mounted m' (ds.set i e) := by
  by_cases hk : (pieces m.hdr data).length ≤ (freePool m.hdr m.bytes).length
  · have hfr : ∀ d ∈ ds, d.inUse = true → d.filename ≠ norm83 name := by
      intro d hd hu hn
      refine hnew (List.mem_map.mpr ⟨d, ?_, hn.trans hc.1⟩)
      rw [hm.eq]; exact mem_files.mpr ⟨hd, hu⟩
    rw [hm.eq] at hslot
    obtain ⟨b', order, map', e, w, nf, c', hw', _⟩ := writeFile_ok hm.2 hne hc.2 (free_slot hslot) hfr hk
    rw [← hm.eq, hw] at hw'
    injection hw' with _ hw'
    subst hw'
    obtain ⟨f1, f2, f3⟩ := getFreeDirent_spec ds
    have hil := (List.getElem?_eq_some_iff.mp hi).1
    have hidx : getFreeDirent ds = i := by
      rcases Nat.lt_trichotomy (getFreeDirent ds) i with h | h | h
      · have h1 := hfirst _ ds[getFreeDirent ds] h (List.getElem?_eq_getElem _)
        rw [f2 _ (List.getElem?_eq_getElem (by omega))] at h1
        cases h1
      · exact h
      · rw [f3 i d h hi] at hd; cases hd
    have hset : setDirent ds (getFreeDirent ds) e = ds.set i e := by
      unfold setDirent
      rw [hidx, if_pos hil]
    rw [hset] at c' ⊢
    refine ⟨e, ?_, ?_, mounted_mountRec c'⟩
    · rw [nf.entry]; exact hc.1
    · rw [nf.entry]; rfl
  · rw [mounted_full (name := name) hm (data := data) (by omega)] at hw
    cases hw

/-! ### an enhanced density disk with a file above sector 719 -/

/-- header of an enhanced density disk -/
def edHeader : Bytes := [0x96, 0x02, 0x80, 0x20, 0x80, 0, 0, 0, 0, 0, 0, 0, 0, 0, 0, 0]
/-- it opened -/
def edH : AHeader := { imageSize := 133120, sectorSize := 128, payloadBytes := 125, headerOffset := 16, maxSectors := 1040 }
/-- sector 800: 125 bytes, the only sector of file 0 -/
def sec800 : Bytes := List.replicate 125 7 ++ [0, 0, 125]
/-- sector 1024: the bits of sectors 48-719 again, the bits of 720-1023 (720 and 800 in use), 302 free sectors above 719 -/
def vtoc25 : Bytes := slice blankVtoc 16 100 ++ (0x7f :: List.replicate 9 0xff ++ (0x7f :: List.replicate 27 0xff)) ++ [0x2e, 1, 0, 0, 0, 0]
/-- sectors 369-1040 -/
def edRest : Bytes := List.replicate (431 * 128) 0 ++ (sec800 ++ (List.replicate (223 * 128) 0 ++ (vtoc25 ++ List.replicate (16 * 128) 0)))
/-- directory entry `BIG`: one sector, 800 -/
def entBig (flag : UInt8) : Bytes := [flag, 1, 0, 0x20, 3, 0x42, 0x49, 0x47, 32, 32, 32, 32, 32, 32, 32, 32]
/-- it decoded -/
def direntBig (flag : UInt8) : ADirent :=
  { flag := flag, openedOutput := flag.toNat.testBit 0, dos2 := flag.toNat.testBit 1, mydos := flag.toNat.testBit 2,
    isDir := flag.toNat.testBit 4, locked := flag.toNat.testBit 5, inUse := flag.toNat.testBit 6,
    deleted := flag.toNat.testBit 7, numSectors := 1, startingSector := 800, basename := [0x42, 0x49, 0x47] }
/-- the disk -/
def edOne (flag : UInt8) : Bytes := diskImage edHeader (16 + 359 * 128) 128 (entBig flag ++ (List.replicate 1008 0 ++ edRest))

theorem vtoc25_length : vtoc25.length = 128 := by decide +kernel
theorem sec800_length : sec800.length = 128 := by decide +kernel
theorem edRest_length : edRest.length = 672 * 128 := by
  unfold edRest
  simp only [List.length_append, List.length_replicate, vtoc25_length, sec800_length]

theorem edTail_length (flag : UInt8) : (entBig flag ++ (List.replicate 1008 0 ++ edRest)).length = 680 * 128 := by
  have : (entBig flag).length = 16 := rfl
  rw [List.length_append, List.length_append, List.length_replicate, edRest_length]; omega

theorem edOne_opens (flag : UInt8) : openHeader (edOne flag) = .ok edH := by
  have h1 : readHeader (edOne flag) = { imageSize := 133120, sectorSize := 128, headerOffset := 16 } := by
    unfold readHeader edOne
    rw [slice_disk rfl]
    rfl
  have h2 : (edOne flag).length = 133136 := by
    unfold edOne
    rw [diskImage_length rfl (by omega) (by omega), edTail_length]
  unfold openHeader
  rw [h1, h2]
  rfl

theorem edOne_sec (flag : UInt8) (k : Nat) : sec edH (edOne flag) (369 + k) = slice edRest (k * 128) (k * 128 + 128) := by
  have hd : edH.dpos (369 + k) = 16 + 368 * 128 + k * 128 := dpos_add edH 369 k (by decide)
  have hl1 : (edHeader ++ List.replicate (16 + 359 * 128 - 16) (0 : UInt8)).length = 16 + 359 * 128 := by
    rw [List.length_append, List.length_replicate]; rfl
  have hl2 : (blankVtoc ++ List.replicate (128 - 100) (0 : UInt8)).length = 128 := by
    rw [List.length_append, List.length_replicate, blankVtoc_length]
  have hl3 : (entBig flag ++ List.replicate 1008 (0 : UInt8)).length = 1024 := by
    rw [List.length_append, List.length_replicate]; rfl
  unfold sec edOne diskImage
  rw [hd, ← List.append_assoc (entBig flag), show edH.sectorSize = 128 from rfl]
  generalize edHeader ++ List.replicate (16 + 359 * 128 - 16) (0 : UInt8) = A at *
  generalize blankVtoc ++ List.replicate (128 - 100) (0 : UInt8) = B at *
  generalize entBig flag ++ List.replicate 1008 (0 : UInt8) = C at *
  rw [show 16 + 368 * 128 + k * 128 = A.length + 1152 + k * 128 by omega]
  clear hl1 hd
  rw [show A.length + 1152 + k * 128 = A.length + B.length + C.length + k * 128 by omega]
  clear hl2 hl3
  apply List.ext_getElem?
  intro j
  rw [getElem?_slice, getElem?_slice, show A.length + B.length + C.length + k * 128 + j = A.length + B.length + C.length + (k * 128 + j) by omega, get_mid]
  by_cases hj : j < 128
  · rw [if_pos (by omega), if_pos (by omega)]
  · rw [if_neg (by omega), if_neg (by omega)]

theorem slice_mid {A B C : Bytes} {p n : Nat} (hp : A.length = p) (hn : B.length = n) : slice (A ++ (B ++ C)) p (p + n) = B := by
  subst hp; subst hn
  unfold slice
  rw [← List.append_assoc, List.take_left' (by rw [List.length_append]), List.drop_left]

theorem edOne_800 (flag : UInt8) : sec edH (edOne flag) 800 = sec800 := by
  rw [show (800 : Nat) = 369 + 431 from rfl, edOne_sec, edRest]
  exact slice_mid List.length_replicate sec800_length

theorem edOne_1024 (flag : UInt8) : sec edH (edOne flag) 1024 = vtoc25 := by
  rw [show (1024 : Nat) = 369 + 655 from rfl, edOne_sec, edRest]
  rw [← List.append_assoc, ← List.append_assoc]
  exact slice_mid (by simp only [List.length_append, List.length_replicate, sec800_length]) vtoc25_length

theorem edOne_360 (flag : UInt8) : sec edH (edOne flag) 360 = blankVtoc ++ List.replicate 28 0 :=
  disk_sec (hdr := edHeader) (pos := 16 + 359 * 128) (ss := 128) (h := edH) rfl (by omega) (by omega) rfl (by decide)

theorem edOne_free (flag : UInt8) : freeMap edH (edOne flag) = unpackbits (slice blankVtoc 10 100) :=
  disk_freeMap (hdr := edHeader) (pos := 16 + 359 * 128) (ss := 128) (h := edH) rfl (by omega) (by omega) rfl (by decide)

theorem edOne_entries (flag : UInt8) : rawEntries edH (edOne flag) = entBig flag :: chunks 16 (List.replicate 1008 0) := by
  unfold rawEntries edOne
  rw [disk_dir (hdr := edHeader) (pos := 16 + 359 * 128) (ss := 128) (h := edH) rfl (by omega) (by omega) rfl (by decide) (by decide),
    ← List.append_assoc, List.take_left' (by rw [List.length_append, List.length_replicate]; rfl)]
  exact chunks_append 16 (by omega) _ _ rfl

theorem edOne_chain (flag : UInt8) (hf : flag.toNat.testBit 2 = false) :
    (direntBig flag).readChain edH (edOne flag) = .ok [(800, edH.dpos 800, 125)] := by
  have g := openHeader_geom (edOne_opens flag)
  have hraw : edH.getRawBytes (edOne flag) 800 = .ok (sec800, edH.dpos 800, 128) := by
    have := getRawBytes_data (b := edOne flag) g (s := 800) (dataSec_of g (by omega) (by decide))
    rw [edOne_800] at this
    exact this
  have hp : (direntBig flag).processRaw ⟨800, []⟩ sec800 = .ok (⟨0, [800]⟩, 125) := by
    unfold sec800
    exact (processRaw_tail _ _ _ _ _ _ hf rfl).trans (if_neg (by decide))
  apply readChain_last rfl (by show (0 : Int) ≤ 800; omega) (st' := ⟨0, [800]⟩)
  show ADirent.readSector _ _ _ ⟨800, []⟩ = _
  unfold ADirent.readSector
  simp only
  rw [hraw]
  simp only
  rw [hp]
  rfl

theorem edOne_consistent (flag : UInt8) (hch : (direntBig flag).readChain edH (edOne flag) = .ok [(800, edH.dpos 800, 125)]) (hf : flag ≠ 0)
    (hp : ADirent.parse edH 0 (entBig flag) = .ok (direntBig flag)) (hs : ADirent.parse edH 0 (direntBig flag).encode = .ok (direntBig flag)) :
    Consistent edH (edOne flag) [direntBig flag] := by
  have hz := chunks_replicate_mem 16 1008 (by omega) (by decide)
  have hent := edOne_entries flag
  generalize chunks 16 (List.replicate 1008 (0 : UInt8)) = R at hz hent
  have hlen : (unpackbits (slice blankVtoc 10 100)).length = 720 := by
    rw [length_unpackbits, length_slice, blankVtoc_length]; omega
  refine { opens := edOne_opens flag, sectorSize := Or.inl rfl, size := by decide, ed := fun _ => by decide, vtocCode := ?_, dir := ?_,
           term := ?_, stable := ?_, chains := ?_, disjoint := ?_, free := ?_, first := ?_ }
  · right; rw [edOne_360]; rfl
  · rw [hent]
    exact scanDir_append edH [entBig flag] [direntBig flag] 0 R rfl
      (by
        intro i r e h1 h2
        cases i with
        | zero => simp at h1 h2; subst h1; subst h2; exact ⟨hp, Or.inr hf⟩
        | succ i => simp at h1)
      (fun e he => hz e (List.mem_of_head? he))
  · intro i d hd
    cases i with
    | zero => simp at hd; subst hd; exact hs
    | succ i => simp at hd
  · intro d hd _
    rw [List.mem_singleton] at hd
    subst hd
    refine ⟨_, hch, by decide, by simp, ?_⟩
    intro x hx
    rw [List.mem_singleton] at hx
    subst hx
    refine ⟨by unfold UserSec; decide, ?_, by decide⟩
    unfold IsFree
    rw [edOne_free, List.getElem?_eq_none (by rw [hlen]; decide)]
    simp
  · intro i j d e hi hj hne
    have := (List.getElem?_eq_some_iff.mp hi).1
    have := (List.getElem?_eq_some_iff.mp hj).1
    simp at *; omega
  · intro s hs
    unfold IsFree at hs
    rw [edOne_free] at hs
    have hlt := (List.getElem?_eq_some_iff.mp hs).1
    have := blankVtoc_free s ((mem_freeList _ _).mpr hs)
    unfold UserSec
    have : edH.maxSectors = 1040 := rfl
    omega
  · intro i j d e hi hj _ hji
    have := (List.getElem?_eq_some_iff.mp hi).1
    simp at this; omega
  · intro i e hi _ he
    rw [hent] at he
    cases i with
    | zero => simp at hi
    | succ i => exact (hz e (List.mem_of_getElem? he)).2

theorem ed3_mounted : Mounted (mountRec edH (edOne 3) [direntBig 3]) [direntBig 3] :=
  mounted_mountRec (edOne_consistent 3 (edOne_chain 3 (by decide)) (by decide) (by rfl) (by rfl))

theorem ed42_mounted : Mounted (mountRec edH (edOne 0x42) [direntBig 0x42]) [direntBig 0x42] :=
  mounted_mountRec (edOne_consistent 0x42 (edOne_chain 0x42 (by decide)) (by decide) (by rfl) (by rfl))

theorem ed_unused (flag : UInt8) (ds) : (mountRec edH (edOne flag) ds).unused = 1009 := by
  unfold mountRec
  rw [edOne_360, edOne_1024]
  show (le16 ((blankVtoc ++ List.replicate 28 0).getD 3 0) ((blankVtoc ++ List.replicate 28 0).getD 4 0) +
    le16 (vtoc25.getD 122 0) (vtoc25.getD 123 0)) % 65536 = 1009
  decide +kernel

/-- **C109, refuted for the space.** There is an enhanced density disk with 1009 free sectors, as the program itself says, on which
100000 bytes, that is 800 sectors, are refused. -/
theorem C109_refuted_space : ∃ m ds, Mounted m ds ∧ m.hdr.imageSize = 133120 ∧ m.unused = 1009 ∧ sectorsNeeded m.hdr 100000 = 800 ∧
    ∀ name data, data.length = 100000 → AImg.writeFile name data m = (.error .notEnoughSpace, m) :=
  ⟨_, _, ed3_mounted, rfl, ed_unused 3 _, rfl, fun name data hd => C109_limit ed3_mounted name (by rw [hd]; show 707 < 800; omega)⟩

/-- **C109, refuted for removing.** A file with a sector above 719 is removed, and the sector stays in use for DOS 2.5. -/
theorem C109_refuted_remove : ∃ m ds m' d, Mounted m ds ∧ d ∈ m.files ∧ 800 ∈ m.sectorsOf d ∧ AImg.deleteFile d.filename m = (.ok (), m') ∧
    m'.files = [] ∧ ¬ IsFree25 m'.hdr m'.bytes 800 := by
  have hl : (direntBig 0x42).filename ∈ (mountRec edH (edOne 0x42) [direntBig 0x42]).names :=
    List.mem_map.mpr ⟨direntBig 0x42, mem_files.mpr ⟨List.mem_singleton.mpr rfl, rfl⟩, rfl⟩
  obtain ⟨m', ds', L1, L2, x, l, h1, h2, h3, h4, h5, _⟩ := mounted_delete ed42_mounted hl
  refine ⟨_, _, m', direntBig 0x42, ed42_mounted, mem_files.mpr ⟨List.mem_singleton.mpr rfl, rfl⟩, ?_, h1, ?_, ?_⟩
  · unfold AImg.sectorsOf
    rw [show (direntBig 0x42).readChain (mountRec edH (edOne 0x42) [direntBig 0x42]).hdr (mountRec edH (edOne 0x42) [direntBig 0x42]).bytes =
      .ok [(800, edH.dpos 800, 125)] from edOne_chain 0x42 (by decide)]
    simp
  · have hl1 := congrArg List.length h4
    have hl2 := congrArg List.length h5
    have hone : (mountRec edH (edOne 0x42) [direntBig 0x42]).listing.length = 1 := by
      unfold AImg.listing; rw [List.length_map]; rfl
    rw [hone] at hl1
    unfold AImg.listing at hl2
    rw [List.length_map] at hl2
    simp only [List.length_append, List.length_cons] at hl1 hl2
    exact List.length_eq_zero_iff.mp (by omega)
  · rw [C109_not_given_back ed42_mounted rfl hl h1 (by omega)]
    show ¬ IsFree25 edH (edOne 0x42) 800
    unfold IsFree25
    rw [edOne_1024, if_neg (by omega)]
    decide +kernel

/-- **C109, refuted for adding.** A file of DOS 2.5 with a sector above 719 (flag 3) is not listed, and adding a file takes away its
directory entry. -/
theorem C109_refuted_add : ∃ m ds name, Mounted m ds ∧ entries25 ds name ∧ name ∉ m.names ∧
    ∃ m' ds', AImg.writeFile nameA dataA m = (.ok (), m') ∧ Mounted m' ds' ∧ ¬ entries25 ds' name := by
  have hnm : (mountRec edH (edOne 3) [direntBig 3]).names = [] := rfl
  have hnew : nameA ∉ (mountRec edH (edOne 3) [direntBig 3]).names := by rw [hnm]; simp
  have hpool : (freePool edH (edOne 3)).length = 707 := by
    unfold freePool
    rw [edOne_free]; exact blankPool_length
  obtain ⟨m', ds', _, _, _, _, h1, h2, _⟩ := mounted_write (name := nameA) (data := dataA) ed3_mounted dataA_ne canonA.2
    (by show 0 < 64; omega) (by rw [canonA.1]; exact hnew)
    (by
      rw [needed_eq ed3_mounted]
      show sectorsNeeded edH dataA.length ≤ (freePool edH (edOne 3)).length
      rw [hpool]
      unfold dataA sectorsNeeded
      rw [List.length_replicate]
      decide)
  refine ⟨_, _, (direntBig 3).filename, ed3_mounted, ⟨direntBig 3, List.mem_singleton.mpr rfl, Or.inr rfl, rfl⟩, by rw [hnm]; simp, m', ?_⟩
  obtain ⟨e, e1, e2, e3⟩ := C109_entry_taken (i := 0) (d := direntBig 3) ed3_mounted canonA hnew (by show 0 < 64; omega) dataA_ne h1 rfl rfl
    (fun j e hj => by omega)
  refine ⟨_, h1, e3, ?_⟩
  rintro ⟨d, hd, _, hn⟩
  rw [show [direntBig 3].set 0 e = [e] from rfl, List.mem_singleton] at hd
  subst hd
  rw [e1] at hn
  revert hn
  decide

example : ∃ m', Reach (mountRec edH (edOne 3) [direntBig 3]) m' ∧ sec m'.hdr m'.bytes 800 = sec800 ∧
    m' = (AImg.writeFile nameA dataA (mountRec edH (edOne 3) [direntBig 3])).2 := by
  refine ⟨_, Reach.step (.write nameA dataA) .start ⟨dataA_ne, canonA.2, by show 0 < 64; omega, ?_⟩, ?_, rfl⟩
  · rw [canonA.1]; exact List.not_mem_nil
  · rw [C109_partial ed3_mounted (Reach.step (.write nameA dataA) .start ⟨dataA_ne, canonA.2, by show 0 < 64; omega, by rw [canonA.1]; exact List.not_mem_nil⟩)
      (s := 800) (by omega) (by decide)]
    exact edOne_800 3

end Atr
