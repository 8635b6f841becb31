import Verif.Spec.AtariLeft
import Verif.Lemmas.AtariLeft
import Verif.Lemmas.AtariMounted
import Verif.Props.AtariBoot
import Verif.Props.AtariRead
/-! # C106: what adding a file does to entries after the end of the directory -/
namespace Atr

/-- what the theorems look at in an entry -/
def entryKey (h : AHeader) (e : Bytes) : Bool × Bytes × Bool := (liveEntry e, entryName e, !liveEntry e || entryFits h e)

theorem parse_key {h : AHeader} {n i : Nat} {e : Bytes} {d : ADirent} (g : h.Geom n) (hp : ADirent.parse h i e = .ok d) :
    (d.inUse, d.filename, d.isSane) = entryKey h e ∧ (d.inUse || d.flag != 0) = goesOn e := by
  unfold ADirent.parse at hp
  split at hp
  · rename_i flag c0 c1 s0 s1 _ _ _ _ _ _ _ _ _ _ _
    injection hp with hp
    subst hp
    refine ⟨?_, ?_⟩
    · unfold entryKey
      refine Prod.ext rfl (Prod.ext rfl ?_)
      show ADirent.sanityCheck h _ = _
      unfold ADirent.sanityCheck liveEntry entryFits
      simp only [List.getD_cons_zero, List.getD_cons_succ, Int.toNat_natCast]
      cases flag.toNat.testBit 6 with
      | false => rfl
      | true =>
        simp only [Bool.not_true, Bool.false_eq_true, if_false, Bool.false_or]
        have h1 := AHeader.sectorIsValid_iff g (le16 s0 s1)
        cases hv : h.sectorIsValid (le16 s0 s1) with
        | false =>
          rw [hv] at h1
          have h2 : ¬ (1 ≤ le16 s0 s1 ∧ le16 s0 s1 ≤ h.maxSectors) := fun hc => Bool.noConfusion (h1.mpr hc)
          simp only [Bool.and_false, Bool.not_false, if_true]
          symm
          rw [decide_eq_false_iff_not]
          exact fun hc => h2 ⟨hc.1, hc.2.1⟩
        | true =>
          have h2 := h1.mp hv
          have h3 : decide ((0 : Int) ≤ (le16 s0 s1 : Nat)) = true := by rw [decide_eq_true_iff]; omega
          simp only [h3, Bool.and_self, Bool.not_true, Bool.false_eq_true, if_false]
          split
          · symm; rw [decide_eq_false_iff_not]; omega
          · symm; rw [decide_eq_true_iff]; omega
    · show (flag.toNat.testBit 6 || flag != 0) = (flag != 0)
      by_cases h0 : flag = 0
      · subst h0; rfl
      · have : (flag != 0) = true := by simpa using h0
        rw [this, Bool.or_true]
  · cases hp

/-- the scan reads the entries up to the first one with flag 0 -/
theorem scan_keys {h : AHeader} {m : Nat} (g : h.Geom m) : ∀ {raw : List Bytes} {n : Nat} {ds : List ADirent}, scanDir h n raw = .ok ds →
    ds.map (fun d => (d.inUse, d.filename, d.isSane)) = (raw.takeWhile goesOn).map (entryKey h) := by
  intro raw
  induction raw with
  | nil => intro n ds hs; cases hs; rfl
  | cons r raw ih =>
    intro n ds hs
    unfold scanDir at hs
    cases hp : ADirent.parse h n r with
    | error e => rw [hp] at hs; cases hs
    | ok d =>
      rw [hp] at hs
      obtain ⟨k1, k2⟩ := parse_key g hp
      have hb : (!d.inUse && d.flag == 0) = !goesOn r := by
        rw [← k2]
        cases d.inUse <;> simp [bne]
      simp only [hb] at hs
      cases hg : goesOn r with
      | false =>
        rw [hg] at hs
        cases hs
        simp [hg]
      | true =>
        rw [hg] at hs
        simp only [Bool.not_true, Bool.false_eq_true, if_false] at hs
        cases hq : scanDir h (n + 1) raw with
        | error e => rw [hq] at hs; cases hs
        | ok ds' =>
          rw [hq] at hs
          cases hs
          rw [List.takeWhile_cons, hg]
          simp only [if_true, List.map_cons, ih hq, k1]

/-- names and sanity of the live ones -/
theorem live_of_keys {h : AHeader} : ∀ {ds : List ADirent} {raw : List Bytes},
    ds.map (fun d => (d.inUse, d.filename, d.isSane)) = raw.map (entryKey h) →
    (ds.filter (·.inUse)).map ADirent.filename = (raw.filter liveEntry).map entryName ∧
    (ds.filter (·.inUse)).all (·.isSane) = (raw.filter liveEntry).all (entryFits h) ∧
    ds.all (·.inUse) = raw.all liveEntry ∧ ds.length = raw.length := by
  intro ds
  induction ds with
  | nil =>
    intro raw hk
    cases raw with
    | nil => exact ⟨rfl, rfl, rfl, rfl⟩
    | cons r raw => cases hk
  | cons d ds ih =>
    intro raw hk
    cases raw with
    | nil => cases hk
    | cons r raw =>
      rw [List.map_cons, List.map_cons] at hk
      injection hk with h1 h2
      obtain ⟨i1, i2, i3, i4⟩ := ih h2
      have e1 : d.inUse = liveEntry r := congrArg (·.1) h1
      have e2 : d.filename = entryName r := congrArg (·.2.1) h1
      have e3 : d.isSane = (!liveEntry r || entryFits h r) := congrArg (·.2.2) h1
      cases hl : liveEntry r with
      | true =>
        rw [hl] at e1 e3
        simp [e1, e2, e3, hl, i1, i2, i3, i4]
      | false =>
        rw [hl] at e1
        simp [e1, hl, i1, i2, i4]

theorem drop_takeWhile_head {raw : List Bytes} : ((raw.drop (raw.takeWhile goesOn).length).takeWhile goesOn) = [] := by
  induction raw with
  | nil => rfl
  | cons r raw ih =>
    rw [List.takeWhile_cons]
    cases hg : goesOn r with
    | true => simpa using ih
    | false => simp [hg]

theorem getFreeDirent_all {ds : List ADirent} (h : ds.all (·.inUse) = true) : getFreeDirent ds = ds.length := by
  unfold getFreeDirent
  rw [List.findIdx?_eq_none_iff.mpr]
  intro d hd
  rw [List.all_eq_true.mp h d hd]
  rfl

theorem getFreeDirent_lt {ds : List ADirent} (h : ds.all (·.inUse) = false) : getFreeDirent ds < ds.length := by
  obtain ⟨k1, k2, k3⟩ := getFreeDirent_spec ds
  by_cases hc : getFreeDirent ds < ds.length
  · exact hc
  · have : ds.all (·.inUse) = true := by
      rw [List.all_eq_true]
      intro d hd
      obtain ⟨i, hi⟩ := List.getElem?_of_mem hd
      have := (List.getElem?_eq_some_iff.mp hi).1
      exact k3 i d (by omega) hi
    rw [this] at h
    cases h

/-- the entries that come back, in terms of the bytes -/
theorem returns_keys {h : AHeader} {b : Bytes} {ds back : List ADirent} (c : Loose h b ds)
    (hr : Returns h b (max ds.length (getFreeDirent ds + 1)) back) :
    (back.filter (·.inUse)).map ADirent.filename = (comesBack h b).map entryName ∧
    (back.filter (·.inUse)).all (·.isSane) = (comesBack h b).all (entryFits h) := by
  have g := c.geom
  obtain ⟨_, _, d3, d4⟩ := live_of_keys (scan_keys g c.dir)
  have d3' : (directoryEntries h b).all liveEntry = ds.all (·.inUse) := d3.symm
  have d4' : (directoryEntries h b).length = ds.length := d4.symm
  unfold comesBack
  simp only [d3', d4']
  cases hall : ds.all (·.inUse) with
  | true =>
    rw [getFreeDirent_all hall, Nat.max_eq_right (by omega)] at hr
    by_cases hm : 16 * (ds.length + 1) % h.sectorSize = 0
    · rw [if_pos ⟨rfl, hm⟩]
      obtain ⟨b1, b2, _, _⟩ := live_of_keys (scan_keys g (hr.2 hm))
      exact ⟨b1, b2⟩
    · rw [if_neg (fun hc => hm hc.2), hr.1 hm]
      exact ⟨rfl, rfl⟩
  | false =>
    have := getFreeDirent_lt hall
    rw [Nat.max_eq_left (by omega)] at hr
    rw [if_neg (fun hc => Bool.noConfusion hc.1)]
    have hb : back = [] := by
      by_cases hm : 16 * ds.length % h.sectorSize = 0
      · have := scan_keys g (hr.2 hm)
        rw [← d4', directoryEntries, drop_takeWhile_head] at this
        exact List.map_eq_nil_iff.mp this
      · exact hr.1 hm
    rw [hb]
    exact ⟨rfl, rfl⟩

/-- **C106** What adding a file does: the other files are as before, the new file is there, and besides just the files
whose entries come back are listed.  If the entry of one of those is not possible on the disk the program reports an
invalid disk image, and the disk cannot be opened any more. -/
theorem C106_write {m : AImg} {ds : List ADirent} {name data : Bytes} (ho : AImg.open m.bytes = .ok m) (c : Loose m.hdr m.bytes ds)
    (hne : data ≠ []) (h0 : (0 : UInt8) ∉ name) (hslot : m.files.length < 64)
    (hroom : sectorsNeeded m.hdr data.length ≤ (freePool m.hdr m.bytes).length) :
    ∃ m', AImg.writeFile name data m =
        (if (comesBack m.hdr m.bytes).all (entryFits m.hdr) then .ok () else .error .invalidDiskImage, m') ∧
      AImg.open m'.bytes = (if (comesBack m.hdr m.bytes).all (entryFits m.hdr) then .ok m' else .error .invalidDiskImage) ∧
      m'.names.Perm (m.names ++ norm83 name :: (comesBack m.hdr m.bytes).map entryName) ∧
      (∀ d ∈ m.files, d ∈ m'.files ∧ d.getFile m'.hdr m'.bytes = d.getFile m.hdr m.bytes) ∧
      ∃ e ∈ m'.files, e.filename = norm83 name ∧ e.getFile m'.hdr m'.bytes = .ok data := by
  have hm : m = mountRec m.hdr m.bytes ds := by
    rw [open_eq c] at ho
    injection ho with ho
    exact ho.symm
  have hf : m.files = ds.filter (·.inUse) := (congrArg AImg.files hm).trans rfl
  generalize m.hdr = h at *
  generalize m.bytes = b at *
  have hsl : getFreeDirent ds < 64 := free_slot (by rw [← hf]; exact hslot)
  have hk : (pieces h data).length ≤ (freePool h b).length := by
    rw [pieces_length c]
    have : data.length + h.sectorSize - 4 = data.length + (h.sectorSize - 3) - 1 := by have := c.sectorSize; omega
    rw [this]; exact hroom
  obtain ⟨b', e, back, hsc, hr, heu, hes, hen, hnew, hold, hw⟩ := writeFile_loose c hne h0 hsl hk
  obtain ⟨r1, r2⟩ := returns_keys c hr
  obtain ⟨k1, k2, k3⟩ := getFreeDirent_spec ds
  obtain ⟨f1, f2⟩ := filter_setDirent (ds := ds) heu
  have hlist : ((setDirent ds (getFreeDirent ds) e ++ back).filter (·.inUse)) =
      ((ds.take (getFreeDirent ds)).filter (·.inUse) ++ e :: (ds.drop (getFreeDirent ds + 1)).filter (·.inUse)) ++ back.filter (·.inUse) := by
    rw [List.filter_append, f1]
  have hperm : (((setDirent ds (getFreeDirent ds) e ++ back).filter (·.inUse)).map ADirent.filename).Perm
      ((ds.filter (·.inUse)).map ADirent.filename ++ norm83 name :: (comesBack h b).map entryName) := by
    rw [hlist, ← r1, f2, List.map_append, List.map_append, List.map_append, List.map_cons, hen]
    generalize ((ds.take (getFreeDirent ds)).filter (·.inUse)).map ADirent.filename = A
    generalize ((ds.drop (getFreeDirent ds + 1)).filter (·.inUse)).map ADirent.filename = B
    generalize (back.filter (·.inUse)).map ADirent.filename = C
    rw [List.append_assoc, List.append_assoc, List.cons_append]
    exact List.Perm.append_left A List.perm_middle.symm
  have hmem : ∀ d ∈ ds.filter (·.inUse), d ∈ (setDirent ds (getFreeDirent ds) e ++ back).filter (·.inUse) := by
    intro d hd
    rw [hlist]
    rw [f2] at hd
    rcases List.mem_append.mp hd with hd | hd
    · exact List.mem_append_left _ (List.mem_append_left _ hd)
    · exact List.mem_append_left _ (List.mem_append_right _ (List.mem_cons_of_mem _ hd))
  have hmeme : e ∈ (setDirent ds (getFreeDirent ds) e ++ back).filter (·.inUse) := by
    rw [hlist]
    exact List.mem_append_left _ (List.mem_append_right _ (by simp))
  have hnames : m.names = (ds.filter (·.inUse)).map ADirent.filename := by
    unfold AImg.names; rw [hf]
  have hsane : ((setDirent ds (getFreeDirent ds) e ++ back).filter (·.inUse)).all (·.isSane) = (comesBack h b).all (entryFits h) := by
    rw [← r2, hlist, List.all_append]
    have : ((ds.take (getFreeDirent ds)).filter (·.inUse) ++ e :: (ds.drop (getFreeDirent ds + 1)).filter (·.inUse)).all (·.isSane) = true := by
      rw [List.all_eq_true]
      intro d hd
      rcases List.mem_append.mp hd with hd | hd
      · exact c.sane (List.mem_of_mem_take (List.mem_filter.mp hd).1) (List.mem_filter.mp hd).2
      · rcases List.mem_cons.mp hd with rfl | hd
        · exact hes
        · exact c.sane (List.mem_of_mem_drop (List.mem_filter.mp hd).1) (List.mem_filter.mp hd).2
    rw [this, Bool.true_and]
  have hopen := open_scan hsc
  rw [hsane] at hopen
  rw [hnames, hf, hm, hw, r2]
  cases hall : (comesBack h b).all (entryFits h) with
  | true =>
    rw [hall] at hopen
    refine ⟨_, rfl, hopen, hperm, fun d hd => ⟨hmem d hd, ?_⟩, e, hmeme, hen, hnew⟩
    exact hold d (List.mem_filter.mp hd).1 (List.mem_filter.mp hd).2
  | false =>
    rw [hall] at hopen
    refine ⟨_, rfl, hopen, hperm, fun d hd => ⟨hmem d hd, ?_⟩, e, hmeme, hen, hnew⟩
    exact hold d (List.mem_filter.mp hd).1 (List.mem_filter.mp hd).2


/-! ### disks on which it happens -/

/-- entry of the file in sector `4 + i` -/
def leftEnt (i : Nat) : Bytes := [0x42, 1, 0, UInt8.ofNat (4 + i), 0, UInt8.ofNat (0x41 + i)] ++ List.replicate 10 32

/-- a disk with seven files of one byte in sectors 4 to 10; sector 20 is free; the directory ends after the seven, but the
next directory sector begins with an entry `Z`, in sector 11 or (`bad`) in sector 779, which does not exist -/
def leftSec (bad : Bool) (s : Nat) : Bytes :=
  if s = 359 then sec128 [2, 0xc3, 2, 1, 0, 0, 0, 0, 0, 0, 0, 0, 8]
  else if s = 360 then sec128 ((List.range 7).flatMap leftEnt)
  else if s = 361 then sec128 ([0x42, 1, 0, 11, if bad then 3 else 0, 0x5a] ++ List.replicate 10 32)
  else if 3 ≤ s ∧ s ≤ 9 then 0x61 :: List.replicate 124 0 ++ [UInt8.ofNat (4 * (s - 3)), 0, 1]
  else if s = 10 then 0x7a :: List.replicate 124 0 ++ [32, 0, 1]
  else List.replicate 128 0

/-- the seven entries, decoded -/
def leftDirent (i : Nat) : ADirent :=
  { fileNum := i, flag := 0x42, dos2 := true, inUse := true, numSectors := 1, startingSector := 4 + i,
    basename := [UInt8.ofNat (0x41 + i)] }

theorem leftSec_length (bad : Bool) (s : Nat) : (leftSec bad s).length = 128 := by
  unfold leftSec sec128
  split
  · decide +kernel
  · split
    · decide +kernel
    · split
      · cases bad <;> decide +kernel
      · split
        · simp
        · split
          · decide +kernel
          · simp

theorem left_disk (bad : Bool) : ∃ b, Loose xfdHeader b ((List.range 7).map leftDirent) ∧
    (∀ s, 4 ≤ s → s ≤ 720 → sec xfdHeader b s = leftSec bad (s - 1)) ∧
    rawEntries xfdHeader b = chunks 16 ((List.range' 361 8).flatMap fun s => leftSec bad (s - 1)) := by
  obtain ⟨b, hbl, ho, hs⟩ := xfd_of (leftSec_length bad) (by cases bad <;> decide +kernel)
  have g := openHeader_geom ho
  have hsec : ∀ s, 4 ≤ s → s ≤ 720 → sec xfdHeader b s = leftSec bad (s - 1) := by
    intro s h1 h2
    rw [← hs s (by omega) h2, sec]
    unfold sectorBytes
    rw [AHeader.getPos_data g (by show 0 < s; omega) (by show s ≤ 720; omega)]
  have hraw : rawEntries xfdHeader b = chunks 16 ((List.range' 361 8).flatMap fun s => leftSec bad (s - 1)) := by
    unfold rawEntries
    rw [slice_sectors g 8 361 (by decide) (by decide), List.flatMap_def, List.flatMap_def]
    congr 2
    apply List.map_congr_left
    intro s hm
    have := List.mem_range'_1.mp hm
    exact hsec s (by omega) (by omega)
  have hfree : ∀ s, IsFree xfdHeader b s ↔ s = 20 := by
    intro s
    unfold IsFree freeMap
    rw [hsec 360 (by omega) (by omega)]
    by_cases h : s < 720
    · revert s
      cases bad <;> decide +kernel
    · rw [List.getElem?_eq_none (by
        rw [length_unpackbits, length_slice, leftSec_length]; omega)]
      constructor
      · intro hc; cases hc
      · intro hc; omega
  have hds : ∀ {i d}, ((List.range 7).map leftDirent)[i]? = some d → i < 7 ∧ d = leftDirent i := by
    intro i d hi
    rw [List.getElem?_map] at hi
    by_cases h : i < 7
    · rw [List.getElem?_range h] at hi
      injection hi with hi
      exact ⟨h, hi.symm⟩
    · rw [List.getElem?_eq_none (by rw [List.length_range]; omega)] at hi
      cases hi
  have hchain : ∀ i, i < 7 → (leftDirent i).readChain xfdHeader b = .ok [(4 + i, xfdHeader.dpos (4 + i), 1)] := by
    intro i hi
    have hr := getRawBytes_data (b := b) g (s := 4 + i) ⟨by show 0 < 4 + i; omega, by show 4 + i ≤ 720; omega⟩
    rw [hsec (4 + i) (by omega) (by omega), show leftSec bad (4 + i - 1) = (0x61 :: List.replicate 124 0) ++ [UInt8.ofNat (4 * i), 0, 1] by
      unfold leftSec
      rw [if_neg (by omega), if_neg (by omega), if_neg (by omega), if_pos (by omega), show 4 + i - 1 - 3 = i by omega]] at hr
    have hp : (leftDirent i).processRaw ⟨4 + i, []⟩ ((0x61 :: List.replicate 124 0) ++ [UInt8.ofNat (4 * i), 0, 1]) = .ok (⟨0, [4 + i]⟩, 1) := by
      have h4 : (UInt8.ofNat (4 * i)).toNat = 4 * i := by rw [toNat_ofNat]; omega
      rw [processRaw_tail _ _ _ _ _ _ rfl (by rw [h4]; show 4 * i / 4 = i; omega), h4]
      rw [show 4 * i % 4 * 256 + (0 : UInt8).toNat = 0 by rw [show (0 : UInt8).toNat = 0 from rfl]; omega]
      rw [if_neg (by simp; omega)]
      rfl
    have hst : (leftDirent i).startingSector.toNat = 4 + i := by show ((4 : Int) + (i : Nat)).toNat = 4 + i; omega
    have h1 : (leftDirent i).readSector xfdHeader b ⟨(leftDirent i).startingSector.toNat, []⟩ = .ok (⟨0, [4 + i]⟩, true, xfdHeader.dpos (4 + i), 1) := by
      rw [hst]
      unfold ADirent.readSector
      simp only
      rw [hr]
      simp only
      rw [hp]
      rfl
    have := readChain_last (st' := ⟨0, [4 + i]⟩) rfl (by show (0 : Int) ≤ 4 + (i : Nat); omega) h1
    rw [hst] at this
    exact this
  refine ⟨b, ?_, hsec, hraw⟩
  refine { opens := ho, sectorSize := Or.inl rfl, size := by decide, ed := fun h => absurd h (by decide), vtocCode := Or.inr ?_,
           dir := ?_, stable := ?_, chains := ?_, disjoint := ?_, free := ?_, first := ?_ }
  · rw [hsec 360 (by omega) (by omega)]; cases bad <;> decide +kernel
  · rw [hraw]; cases bad <;> decide +kernel
  · intro i d hd
    obtain ⟨h1, rfl⟩ := hds hd
    match i, h1 with
    | 0, _ => rfl
    | 1, _ => rfl
    | 2, _ => rfl
    | 3, _ => rfl
    | 4, _ => rfl
    | 5, _ => rfl
    | 6, _ => rfl
  · intro d hd _
    obtain ⟨i, hi⟩ := List.getElem?_of_mem hd
    obtain ⟨h1, rfl⟩ := hds hi
    refine ⟨_, hchain i h1, by simp [byteOrder], by simp, ?_⟩
    intro x hx
    rw [List.mem_singleton] at hx
    subst hx
    refine ⟨⟨by show 4 ≤ 4 + i; omega, by show 4 + i ≤ 720; omega, by show 4 + i < 1280; omega, ?_⟩, ?_, by show 1 ≤ 128; omega⟩
    · rintro (hc | hc)
      · have : 360 ≤ 4 + i := hc.1
        omega
      · have : 4 + i = 1024 := hc.2
        omega
    · intro hf
      have : 4 + i = 20 := (hfree _).mp hf
      omega
  · intro i j d e hd he hij _ _ l l' hl hl' x hx y hy
    obtain ⟨h1, rfl⟩ := hds hd
    obtain ⟨h2, rfl⟩ := hds he
    rw [hchain i h1] at hl
    rw [hchain j h2] at hl'
    injection hl with hl
    injection hl' with hl'
    subst hl; subst hl'
    rw [List.mem_singleton] at hx hy
    subst hx; subst hy
    show 4 + i ≠ 4 + j
    omega
  · intro s hf
    rw [(hfree s).mp hf]
    exact ⟨by decide, by decide, by decide, by decide⟩
  · intro i j d e hd he _ hji
    obtain ⟨h1, rfl⟩ := hds hd
    obtain ⟨h2, rfl⟩ := hds he
    intro hc
    have hc : [UInt8.ofNat (0x41 + j)] ++ [] = [UInt8.ofNat (0x41 + i)] ++ [] := hc
    injection hc with hc
    have := congrArg UInt8.toNat hc
    rw [toNat_ofNat, toNat_ofNat] at this
    omega

/-- **C106** Just the file is added if an entry of the directory is free, or the new entry is not the last one of its
sector, or the directory has no used entry behind it. -/
theorem C106_only {m : AImg} {ds : List ADirent} {name data : Bytes} (ho : AImg.open m.bytes = .ok m) (c : Loose m.hdr m.bytes ds)
    (hne : data ≠ []) (h0 : (0 : UInt8) ∉ name) (hslot : m.files.length < 64)
    (hroom : sectorsNeeded m.hdr data.length ≤ (freePool m.hdr m.bytes).length)
    (hend : (∃ e ∈ directoryEntries m.hdr m.bytes, liveEntry e = false) ∨
      16 * ((directoryEntries m.hdr m.bytes).length + 1) % m.hdr.sectorSize ≠ 0 ∨
      ∀ e, (rawEntries m.hdr m.bytes)[(directoryEntries m.hdr m.bytes).length + 1]? = some e → goesOn e = false) :
    ∃ m', AImg.writeFile name data m = (.ok (), m') ∧ AImg.open m'.bytes = .ok m' ∧ m'.names.Perm (norm83 name :: m.names) ∧
      (∀ d ∈ m.files, d ∈ m'.files ∧ d.getFile m'.hdr m'.bytes = d.getFile m.hdr m.bytes) ∧
      ∃ e ∈ m'.files, e.filename = norm83 name ∧ e.getFile m'.hdr m'.bytes = .ok data := by
  have hb : comesBack m.hdr m.bytes = [] := by
    unfold comesBack
    simp only
    split
    · rename_i hc
      rcases hend with ⟨e, he, hl⟩ | hn | hn
      · rw [List.all_eq_true.mp hc.1 e he] at hl
        cases hl
      · exact absurd hc.2 hn
      · generalize (directoryEntries m.hdr m.bytes).length + 1 = n at hn
        cases hd : (rawEntries m.hdr m.bytes).drop n with
        | nil => rfl
        | cons e l =>
          have : (rawEntries m.hdr m.bytes)[n]? = some e := by
            have := congrArg (·[0]?) hd
            simpa using this
          rw [List.takeWhile_cons, hn e this]
          rfl
    · rfl
  obtain ⟨m', h1, h2, h3, h4, h5⟩ := C106_write ho c hne h0 hslot hroom
  rw [hb] at h1 h2 h3
  rw [List.map_nil] at h3
  exact ⟨m', h1, h2, h3.trans (List.perm_append_singleton _ _), h4, h5⟩

theorem empty_write {h : AHeader} {b : Bytes} (c : Loose h b []) (hs : h.sectorSize = 128) (hp : (freePool h b).length = 707) :
    ∃ m', AImg.writeFile [0x4e] [1] (mountRec h b []) = (.ok (), m') ∧ m'.names = [[0x4e]] := by
  have hlen : (directoryEntries h b).length = 0 := (live_of_keys (scan_keys c.geom c.dir)).2.2.2.symm
  obtain ⟨m', h1, _, h3, _⟩ := C106_only (m := mountRec h b []) (name := [0x4e]) (data := [1]) (open_eq c) c
    (by decide) (by decide) (show ([] : List ADirent).length < 64 by decide)
    (show sectorsNeeded h 1 ≤ (freePool h b).length by rw [hp, sectorsNeeded, hs]; decide)
    (Or.inr (Or.inl (show 16 * ((directoryEntries h b).length + 1) % h.sectorSize ≠ 0 by rw [hlen, hs]; decide)))
  exact ⟨m', h1, List.perm_singleton.mp h3⟩

/-- adding a file to the empty single density disk -/
example : ∃ m', AImg.writeFile [0x4e] [1] (mountRec sdH sdDisk []) = (.ok (), m') ∧ m'.names = [[0x4e]] :=
  empty_write sdDisk_consistent.toLoose rfl sdDisk_pool

theorem left_back (bad : Bool) {b : Bytes} (hraw : rawEntries xfdHeader b = chunks 16 ((List.range' 361 8).flatMap fun s => leftSec bad (s - 1))) :
    (comesBack xfdHeader b).map entryName = [[0x5a]] ∧ (comesBack xfdHeader b).all (entryFits xfdHeader) = !bad := by
  unfold comesBack directoryEntries
  simp only [hraw]
  cases bad <;> decide +kernel

/-- adding a file to the disks: the hypotheses of `C106_write` are met -/
theorem left_write (bad : Bool) : ∃ m m' : AImg, AImg.open m.bytes = .ok m ∧ [0x5a] ∉ m.names ∧ m.files.length = 7 ∧
    AImg.writeFile [0x4e] [1] m = (if bad then .error .invalidDiskImage else .ok (), m') ∧
    AImg.open m'.bytes = (if bad then .error .invalidDiskImage else .ok m') ∧ [0x5a] ∈ m'.names := by
  obtain ⟨b, c, hsec, hraw⟩ := left_disk bad
  obtain ⟨b1, b2⟩ := left_back bad hraw
  have ho := open_eq c
  have hfree : (freePool xfdHeader b).length = 1 := by
    unfold freePool freeMap
    rw [hsec 360 (by omega) (by omega)]
    cases bad <;> decide +kernel
  obtain ⟨m', h1, h2, h3, _⟩ := C106_write (m := mountRec xfdHeader b ((List.range 7).map leftDirent)) (name := [0x4e]) (data := [1]) ho c
    (by decide) (by decide) (by show (((List.range 7).map leftDirent).filter (·.inUse)).length < 64; decide +kernel)
    (by show sectorsNeeded xfdHeader 1 ≤ (freePool xfdHeader b).length; rw [hfree]; decide +kernel)
  have b1' : (comesBack (mountRec xfdHeader b ((List.range 7).map leftDirent)).hdr (mountRec xfdHeader b ((List.range 7).map leftDirent)).bytes).map entryName = [[0x5a]] := b1
  have b2' : (comesBack (mountRec xfdHeader b ((List.range 7).map leftDirent)).hdr (mountRec xfdHeader b ((List.range 7).map leftDirent)).bytes).all
    (entryFits (mountRec xfdHeader b ((List.range 7).map leftDirent)).hdr) = !bad := b2
  rw [b2'] at h1 h2
  rw [b1'] at h3
  refine ⟨mountRec xfdHeader b ((List.range 7).map leftDirent), m', ho, ?_, rfl, ?_, ?_, ?_⟩
  · show [0x5a] ∉ (((List.range 7).map leftDirent).filter (·.inUse)).map ADirent.filename
    decide +kernel
  · rw [h1]; cases bad <;> rfl
  · rw [h2]; cases bad <;> rfl
  · exact h3.mem_iff.mpr (by simp)

/-- **C106 refuted** A file that was not on the disk is listed after another one has been added. -/
theorem C106_refuted_returns : ∃ m m' : AImg, AImg.open m.bytes = .ok m ∧ [0x5a] ∉ m.names ∧
    AImg.writeFile [0x4e] [1] m = (.ok (), m') ∧ [0x5a] ∈ m'.names := by
  obtain ⟨m, m', h1, h2, _, h3, _, h4⟩ := left_write false
  exact ⟨m, m', h1, h2, h3, h4⟩

/-- **C106 refuted** A disk that could be read cannot be opened after a file has been added. -/
theorem C106_refuted_opens : ∃ m m' : AImg, AImg.open m.bytes = .ok m ∧ m.files.length = 7 ∧
    AImg.writeFile [0x4e] [1] m = (.error .invalidDiskImage, m') ∧ AImg.open m'.bytes = .error .invalidDiskImage := by
  obtain ⟨m, m', h1, _, h2, h3, h4, _⟩ := left_write true
  exact ⟨m, m', h1, h2, h3, h4⟩

end Atr
