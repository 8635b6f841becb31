import Verif.Lemmas.AtariHang
import Verif.Lemmas.AtariOne
import Verif.Props.AtariFiles
/-!
# C08, C46 (MyDOS part), C49: reading files from arbitrary images

`d.readLoop h b fuel ⟨s, []⟩` is the Python read loop started at sector `s` and cut off after `fuel` sector reads
(`Err.hang` when it has not ended by then).
-/
namespace Atr

/-- **C08.** Any bytes that open as an image, any entry not flagged as MyDOS: the read ends after at most `max_sectors`
sector reads, no sector twice, or with one of five exceptions (four of them `AtrError`s); allowing more reads makes no
difference. -/
theorem C08_read_terminates {b : Bytes} {h : AHeader} (ho : openHeader b = .ok h) {d : ADirent} (hd : d.mydos = false) :
    ((∃ l, d.readChain h b = .ok l ∧ l.length ≤ h.maxSectors ∧ (l.map (·.1)).Nodup ∧ ∀ x ∈ l, 1 ≤ x.1 ∧ x.1 ≤ h.maxSectors) ∨
     (∃ e, d.readChain h b = .error e ∧ e ∈ [.invalidDirent, .byteNotInFile, .fileNumberMismatch, .invalidFile, .indexError])) ∧
    d.readChain h b ≠ .error .hang ∧ d.getFile h b ≠ .error .hang ∧
    ∀ fuel, h.maxSectors + 1 ≤ fuel → d.readLoop h b fuel ⟨d.startingSector.toNat, []⟩ =
      d.readLoop h b (h.maxSectors + 1) ⟨d.startingSector.toNat, []⟩ := by
  have g := openHeader_geom ho
  have key := fun fuel hf => readLoop_terminates hd g (b := b) fuel ⟨d.startingSector.toNat, []⟩ (by simp) (by simp) (by simp) hf
  have hmain : (∃ l, d.readChain h b = .ok l ∧ l.length ≤ h.maxSectors ∧ (l.map (·.1)).Nodup ∧ ∀ x ∈ l, 1 ≤ x.1 ∧ x.1 ≤ h.maxSectors) ∨
     (∃ e, d.readChain h b = .error e ∧ e ∈ [Err.invalidDirent, .byteNotInFile, .fileNumberMismatch, .invalidFile, .indexError]) := by
    unfold ADirent.readChain
    split
    · right; exact ⟨_, rfl, by decide⟩
    · split
      · right; exact ⟨_, rfl, by decide⟩
      · rcases key (h.maxSectors + 1) (by simp) with ⟨l, h1, h2, h3, h4⟩ | ⟨e, h1, h2⟩
        · left; exact ⟨l, h1, by simpa using h2, h3, fun x hx => (h4 x hx).2⟩
        · right; refine ⟨e, h1, ?_⟩
          rcases h2 with rfl | rfl | rfl | rfl <;> decide
  have hnh : d.readChain h b ≠ .error .hang := by
    intro hc
    rcases hmain with ⟨l, h1, _⟩ | ⟨e, h1, h2⟩
    · rw [h1] at hc; cases hc
    · rw [h1] at hc; injection hc with hc; subst hc; revert h2; decide
  refine ⟨hmain, hnh, ?_, ?_⟩
  · unfold ADirent.getFile
    cases hr : d.readChain h b with
    | error e => simp only; rw [hr] at hnh; intro hc; injection hc with hc; rw [hc] at hnh; exact hnh rfl
    | ok l =>
      simp only
      split
      · intro hc; cases hc
      · unfold gather; split <;> (intro hc; cases hc)
  · intro fuel hf
    rw [show fuel = (h.maxSectors + 1) + (fuel - (h.maxSectors + 1)) by omega]
    apply readLoop_fuel
    intro hc
    rcases key (h.maxSectors + 1) (by simp) with ⟨l, h1, _⟩ | ⟨e, h1, h2⟩
    · rw [h1] at hc; cases hc
    · rw [h1] at hc; injection hc with hc; subst hc
      rcases h2 with h2 | h2 | h2 | h2 <;> cases h2

/-- a sector without data, linked to sector 369, file number 0 -/
def cycSec : Bytes := List.replicate 125 0 ++ [1, 113, 0]
/-- sector 369 is `cycSec`, the rest of the disk is zero -/
def cycleRest : Bytes := cycSec ++ List.replicate (351 * 128) 0
/-- directory entry `A`: one sector, starting at 369 -/
def entA (flag : UInt8) : Bytes := [flag, 1, 0, 113, 1, 0x41, 32, 32, 32, 32, 32, 32, 32, 32, 32, 32]
/-- `entA`, decoded -/
def direntA (flag : UInt8) : ADirent :=
  { flag := flag, openedOutput := flag.toNat.testBit 0, dos2 := flag.toNat.testBit 1, mydos := flag.toNat.testBit 2,
    isDir := flag.toNat.testBit 4, locked := flag.toNat.testBit 5, inUse := flag.toNat.testBit 6,
    deleted := flag.toNat.testBit 7, numSectors := 1, startingSector := 369, basename := [0x41] }

theorem cycSec_length : cycSec.length = 128 := by
  unfold cycSec
  rw [List.length_append, List.length_replicate]; rfl

theorem getD_tail (p : Bytes) (x y z : UInt8) : (p ++ [x, y, z]).getD ((p ++ [x, y, z]).length - 3) 0 = x ∧
    (p ++ [x, y, z]).getD ((p ++ [x, y, z]).length - 2) 0 = y ∧ (p ++ [x, y, z]).getD ((p ++ [x, y, z]).length - 1) 0 = z := by
  have h : (p ++ [x, y, z]).length = p.length + 3 := by rw [List.length_append]; rfl
  rw [h, show p.length + 3 - 3 = p.length by omega, show p.length + 3 - 2 = p.length + 1 by omega,
    show p.length + 3 - 1 = p.length + 2 by omega]
  simp [List.getD_eq_getElem?_getD]

theorem cycSec_link : (cycSec.getD (cycSec.length - 3) 0).toNat * 256 + (cycSec.getD (cycSec.length - 2) 0).toNat = 369 := by
  unfold cycSec
  rw [(getD_tail _ 1 113 0).1, (getD_tail _ 1 113 0).2.1]
  rfl

theorem processRaw_tail (d : ADirent) (st : ReadSt) (p : Bytes) (x y z : UInt8) (hd : d.mydos = false) (hx : x.toNat / 4 = d.fileNum) :
    d.processRaw st (p ++ [x, y, z]) = if (st.cur :: st.seen).contains (x.toNat % 4 * 256 + y.toNat) then .error .invalidFile
      else .ok (⟨x.toNat % 4 * 256 + y.toNat, st.cur :: st.seen⟩, z.toNat) := by
  have g := getD_tail p x y z
  have hl : ¬ (p ++ [x, y, z]).length < 3 := by rw [List.length_append]; simp
  generalize p ++ [x, y, z] = raw at g hl ⊢
  unfold ADirent.processRaw
  rw [if_neg hl, g.1, g.2.1, g.2.2]
  simp only [hd, hx]
  simp

theorem cycleRest_length : cycleRest.length = 352 * 128 := by
  unfold cycleRest
  rw [List.length_append, List.length_replicate]; rfl

theorem cycle_sec (flag : UInt8) : sec sdH (sdOne (entA flag) cycleRest) (369 + 0) = cycSec := by
  rw [sdOne_sec rfl, cycleRest]
  unfold slice
  rw [List.take_left' cycSec_length]
  rfl

theorem cycle_scans : Scans sdH (sdOne (entA 0x42) cycleRest) [direntA 0x42] := sdOne_scans rfl cycleRest_length (by rfl) (by rfl)
theorem cycle_scans_mydos : Scans sdH (sdOne (entA 0x46) cycleRest) [direntA 0x46] := sdOne_scans rfl cycleRest_length (by rfl) (by rfl)

theorem cycle_raw (flag : UInt8) (hs : Scans sdH (sdOne (entA flag) cycleRest) [direntA flag]) :
    sdH.getRawBytes (sdOne (entA flag) cycleRest) 369 = .ok (cycSec, sdH.dpos 369, 128) := by
  have := getRawBytes_data (b := sdOne (entA flag) cycleRest) (openHeader_geom hs.opens) (sdH_data 0 (by omega))
  rw [cycle_sec] at this
  exact this

/-- opening a disk that scans to the single live entry `direntA` -/
theorem one_open {b : Bytes} {flag : UInt8} (hu : flag.toNat.testBit 6 = true) (hs : Scans sdH b [direntA flag]) :
    ∃ m, AImg.open b = .ok m ∧ m.names = [[0x41]] ∧ m.findFile [0x41] = (direntA flag).getFile sdH b := by
  have h1 : [direntA flag].filter (·.inUse) = [direntA flag] := by
    rw [List.filter_cons_of_pos (by exact hu)]; rfl
  have : (([direntA flag].filter (·.inUse)).all (·.isSane)) = true := by rw [h1]; rfl
  have h2 : (mountRec sdH b [direntA flag]).files = [direntA flag] := h1
  refine ⟨mountRec sdH b [direntA flag], by rw [open_scan hs, if_pos this], ?_, ?_⟩
  · unfold AImg.names; rw [h2]; rfl
  · have hfd : (mountRec sdH b [direntA flag]).findDirent [0x41] = .ok (direntA flag) := by
      unfold AImg.findDirent; rw [h2]; rfl
    unfold AImg.findFile
    rw [hfd]
    rfl

theorem cycle_read {b : Bytes} (hraw : sdH.getRawBytes b 369 = .ok (cycSec, sdH.dpos 369, 128)) :
    (direntA 0x42).readChain sdH b = .error .invalidFile := by
  have hp : (direntA 0x42).processRaw ⟨369, []⟩ cycSec = .error .invalidFile := by
    unfold cycSec
    exact (processRaw_tail _ _ _ _ _ _ rfl rfl).trans (if_pos (by decide))
  apply readChain_err rfl (by decide)
  show ADirent.readSector _ _ _ ⟨369, []⟩ = _
  unfold ADirent.readSector
  simp only
  rw [hraw]
  simp only
  rw [hp]

/-- C08 on a cyclic chain: reported as an error. -/
example : openHeader (sdOne (entA 0x42) cycleRest) = .ok sdH ∧ (direntA 0x42).mydos = false ∧
    (direntA 0x42).readChain sdH (sdOne (entA 0x42) cycleRest) = .error .invalidFile :=
  ⟨cycle_scans.opens, rfl, cycle_read (cycle_raw 0x42 cycle_scans)⟩

/-- **C46, MyDOS entries.** The reader keeps no list of sectors seen.  Cutting the loop off after `max_sectors + 1` reads is
exact: what has not ended by then never ends. -/
theorem C46_mydos_hang_iff {b : Bytes} {h : AHeader} (ho : openHeader b = .ok h) {d : ADirent} (hd : d.mydos = true)
    (hs : d.isSane = true) (h0 : 0 ≤ d.startingSector) :
    d.readChain h b = .error .hang ↔ ∀ fuel, d.readLoop h b fuel ⟨d.startingSector.toNat, []⟩ = .error .hang := by
  have g := openHeader_geom ho
  unfold ADirent.readChain
  rw [hs, if_neg (by decide), if_neg (by omega)]
  constructor
  · intro hh fuel
    rw [readLoop_hang_iff] at hh ⊢
    rintro ⟨k, _, e⟩
    exact hh ⟨k, e.bound hd g, e⟩
  · intro hh; exact hh _

/-- C46 is false: a sector whose link points to itself makes the reader of a MyDOS file loop forever. -/
theorem C46_refuted_mydos {b : Bytes} {h : AHeader} {d : ADirent} (hd : d.mydos = true)
    {s pos k : Nat} {raw : Bytes} (h0 : d.startingSector = s) (hne : s ≠ 0) (hr : h.getRawBytes b s = .ok (raw, pos, k)) (hl : 3 ≤ raw.length)
    (hlink : (raw.getD (raw.length - 3) 0).toNat * 256 + (raw.getD (raw.length - 2) 0).toNat = s) :
    ∀ fuel, d.readLoop h b fuel ⟨d.startingSector.toNat, []⟩ = .error .hang := by
  rw [h0, Int.toNat_natCast]
  have hstep : d.readSector h b ⟨s, []⟩ = .ok (⟨s, []⟩, false, pos, (raw.getD (raw.length - 1) 0).toNat) := by
    unfold ADirent.readSector ADirent.processRaw
    rw [hr]
    simp only [hd, if_true, if_neg (show ¬ raw.length < 3 by omega), hlink]
    simp [hne]
  intro fuel
  induction fuel with
  | zero => rfl
  | succ fuel ih => simp only [ADirent.readLoop]; rw [hstep]; simp only [Bool.false_eq_true, if_false]; rw [ih]

theorem cycle_hang {b : Bytes} (ho : openHeader b = .ok sdH) (hraw : sdH.getRawBytes b 369 = .ok (cycSec, sdH.dpos 369, 128)) :
    (direntA 0x46).getFile sdH b = .error .hang := by
  have hloop := C46_refuted_mydos (d := direntA 0x46) rfl (s := 369) rfl (by omega) hraw (by rw [cycSec_length]; decide)
    cycSec_link
  have hchain := (C46_mydos_hang_iff ho (d := direntA 0x46) rfl rfl (by decide)).mpr hloop
  unfold ADirent.getFile
  rw [hchain]

/-- C46 is false, concretely: a disk that opens, lists a file `A`, and hangs when the file is extracted. -/
theorem C46_refuted_mydos_image : ∃ (b : Bytes) (m : AImg), AImg.open b = .ok m ∧ m.names = [[0x41]] ∧ m.findFile [0x41] = .error .hang := by
  obtain ⟨m, h1, h2, h3⟩ := one_open (by decide) cycle_scans_mydos
  exact ⟨_, m, h1, h2, h3.trans (cycle_hang cycle_scans_mydos.opens (cycle_raw 0x46 cycle_scans_mydos))⟩

/-- **C49 is false.** Whenever a file's sectors hold no data byte at all, extracting it gives the complete disk image
(headers, other files and all) instead of nothing. -/
theorem C49_refuted_empty_file {b : Bytes} {h : AHeader} {d : ADirent} {l} (hl : d.readChain h b = .ok l) (hz : ∀ x ∈ l, x.2.2 = 0) :
    d.getFile h b = .ok b := by
  have : byteOrder l = [] := by
    unfold byteOrder
    rw [List.flatMap_eq_nil_iff]
    intro x hx; rw [hz x hx]; rfl
  unfold ADirent.getFile
  rw [hl]
  simp only
  rw [if_pos this]

/-- C49, the part that holds: a file with at least one data byte gives exactly the bytes its sectors hold, in order. -/
theorem C49_nonempty_partial {b : Bytes} {h : AHeader} {d : ADirent} {l} {x : Bytes} (hl : d.readChain h b = .ok l)
    (hz : ∃ x ∈ l, x.2.2 ≠ 0) (hx : d.getFile h b = .ok x) :
    x = l.flatMap fun y => slice b y.2.1 (y.2.1 + y.2.2) := by
  have hne : byteOrder l ≠ [] := by
    unfold byteOrder
    intro hc
    rw [List.flatMap_eq_nil_iff] at hc
    obtain ⟨y, hy, hy0⟩ := hz
    have := congrArg List.length (hc y hy)
    simp at this; exact hy0 this
  unfold ADirent.getFile at hx
  rw [hl] at hx
  simp only [if_neg hne] at hx
  have hall : ∀ y ∈ l, y.2.2 = 0 ∨ y.2.1 + y.2.2 ≤ b.length := by
    intro y hy
    unfold gather at hx
    split at hx
    · rename_i ha
      rw [List.all_eq_true] at ha
      by_cases h0 : y.2.2 = 0
      · exact Or.inl h0
      · right
        have := ha (y.2.1 + (y.2.2 - 1)) (by
          unfold byteOrder
          exact List.mem_flatMap.mpr ⟨y, hy, List.mem_range'_1.mpr ⟨by omega, by omega⟩⟩)
        simp at this; omega
    · cases hx
  have hf : ∀ l : List (Nat × Nat × Nat), byteOrder l = byteOrder (l.filter (fun y => y.2.2 != 0)) := by
    intro l
    induction l with
    | nil => rfl
    | cons y l ih =>
      by_cases h0 : y.2.2 = 0
      · rw [List.filter_cons_of_neg (by simp [h0])]
        rw [byteOrder, List.flatMap_cons, h0, ← ih]; rfl
      · rw [List.filter_cons_of_pos (by simp [h0])]
        rw [byteOrder, List.flatMap_cons, byteOrder, List.flatMap_cons]
        congr 1
  have hg : ∀ l : List (Nat × Nat × Nat), (l.flatMap fun y => slice b y.2.1 (y.2.1 + y.2.2)) =
      (l.filter (fun y => y.2.2 != 0)).flatMap fun y => slice b y.2.1 (y.2.1 + y.2.2) := by
    intro l
    induction l with
    | nil => rfl
    | cons y l ih =>
      by_cases h0 : y.2.2 = 0
      · rw [List.filter_cons_of_neg (by simp [h0]), List.flatMap_cons, ih]
        have : slice b y.2.1 (y.2.1 + y.2.2) = [] := by
          apply List.eq_nil_of_length_eq_zero
          rw [length_slice]; omega
        rw [this]; rfl
      · rw [List.filter_cons_of_pos (by simp [h0]), List.flatMap_cons, List.flatMap_cons, ih]
  rw [hf, gather_flatMap b _ (by
    intro y hy
    rw [List.mem_filter] at hy
    have := hall y hy.1
    have h2 : y.2.2 ≠ 0 := by simpa using hy.2
    omega)] at hx
  injection hx with hx
  rw [hg, hx]

theorem empty_read {b : Bytes} (hraw : sdH.getRawBytes b 369 = .ok (List.replicate 128 0, sdH.dpos 369, 128)) :
    (direntA 0x42).getFile sdH b = .ok b := by
  have hp : (direntA 0x42).processRaw ⟨369, []⟩ (List.replicate 128 0) = .ok (⟨0, [369]⟩, 0) := by
    rw [show List.replicate 128 (0 : UInt8) = List.replicate 125 0 ++ [0, 0, 0] from
      (List.replicate_append_replicate (n := 125) (m := 3) (a := (0 : UInt8))).symm]
    exact (processRaw_tail _ _ _ _ _ _ rfl rfl).trans (if_neg (by decide))
  have hc : (direntA 0x42).readChain sdH b = .ok [(369, sdH.dpos 369, 0)] := by
    apply readChain_last (st' := ⟨0, [369]⟩) rfl (by decide)
    show ADirent.readSector _ _ _ ⟨369, []⟩ = _
    unfold ADirent.readSector
    simp only
    rw [hraw]
    simp only
    rw [hp]
    rfl
  exact C49_refuted_empty_file hc (by simp)

/-- a disk with a zero-byte file `A`: extracting it gives all 92176 bytes of the image -/
theorem C49_refuted_image : ∃ (b : Bytes) (m : AImg), AImg.open b = .ok m ∧ m.names = [[0x41]] ∧ b.length = 92176 ∧
    m.findFile [0x41] = .ok b := by
  have hs : Scans sdH (sdOne (entA 0x42) (List.replicate (352 * 128) 0)) [direntA 0x42] :=
    sdOne_scans rfl List.length_replicate (by rfl) (by rfl)
  obtain ⟨m, h1, h2, h3⟩ := one_open (by decide) hs
  refine ⟨_, m, h1, h2, ?_, h3.trans (empty_read ?_)⟩
  · have hl : (entA 0x42 ++ (List.replicate 1008 (0 : UInt8) ++ List.replicate (352 * 128) 0)).length = 360 * 128 := by
      rw [List.length_append, List.length_append, List.length_replicate, List.length_replicate]; rfl
    unfold sdOne
    rw [diskImage_length rfl (by omega) (by omega), hl]
  · have hraw := getRawBytes_data (b := sdOne (entA 0x42) (List.replicate (352 * 128) 0)) (openHeader_geom hs.opens) (sdH_data 0 (by omega))
    rw [sdOne_sec rfl, slice_replicate] at hraw
    exact hraw

/-- the hypotheses of `C49_nonempty_partial` are met by the first file of the disk built for C01 -/
example : ∃ (m : AImg) (d : ADirent) (l : List (Nat × Nat × Nat)) (x : Bytes), d.readChain m.hdr m.bytes = .ok l ∧ (∃ y ∈ l, y.2.2 ≠ 0) ∧ d.getFile m.hdr m.bytes = .ok x := by
  obtain ⟨m1, _, ds1, _, _, hm, _, _, _, _, h5, _⟩ := two_files
  have : (nameA, Except.ok dataA) ∈ m1.listing := by rw [h5]; exact List.mem_singleton_self _
  obtain ⟨d, hd, he⟩ := List.mem_map.mp this
  injection he with _ he
  have hf : d ∈ (mountRec m1.hdr m1.bytes ds1).files := by rw [← hm.eq]; exact hd
  obtain ⟨l, l1, l2, _⟩ := hm.2.chains d (mem_files.mp hf).1 (mem_files.mp hf).2
  refine ⟨m1, d, l, dataA, l1, ?_, he⟩
  apply Classical.byContradiction
  intro hc
  apply l2
  unfold byteOrder
  rw [List.flatMap_eq_nil_iff]
  intro y hy
  have : y.2.2 = 0 := Classical.byContradiction fun h => hc ⟨y, hy, h⟩
  rw [this]; rfl

end Atr
