import Verif.Model.FirstLine
import Verif.Spec.FirstLine
import Verif.Props.Display
import Verif.Props.SegLinesMore
import Verif.Props.AtariBoot
import Verif.Props.VtocText
import Verif.Props.SpartaDir
import Verif.Props.SegLinesSparta
/-!
# C107: the line about the image that every command but `crc` prints first
-/
namespace Atr

/-! ### the disk -/

theorem parse_header (b : Bytes) : AHeader.parse (slice b 0 16) = if isAtr b then
      .ok {
        imageSize := ((b.getD 6 0).toNat * 256 * 256 + wordAt b 2) * 16
        sectorSize := wordAt b 4
        crc := wordAt b 7 + 65536 * wordAt b 9
        unused := wordAt b 11 + 65536 * wordAt b 13
        flags := (b.getD 15 0).toNat
        headerOffset := 16 }
    else .error .invalidAtrHeader := by
  by_cases hl : 16 ≤ b.length
  · match b, hl with
    | m0 :: m1 :: p0 :: p1 :: s0 :: s1 :: ph :: c0 :: c1 :: c2 :: c3 :: u0 :: u1 :: u2 :: u3 :: fl :: r, hl =>
      have : (isAtr (m0 :: m1 :: p0 :: p1 :: s0 :: s1 :: ph :: c0 :: c1 :: c2 :: c3 :: u0 :: u1 :: u2 :: u3 :: fl :: r)) ↔ le16 m0 m1 = 0x296 :=
        ⟨fun h => h.2, fun h => ⟨hl, h⟩⟩
      rw [show slice (m0 :: m1 :: p0 :: p1 :: s0 :: s1 :: ph :: c0 :: c1 :: c2 :: c3 :: u0 :: u1 :: u2 :: u3 :: fl :: r) 0 16 =
        [m0, m1, p0, p1, s0, s1, ph, c0, c1, c2, c3, u0, u1, u2, u3, fl] from rfl]
      unfold AHeader.parse
      simp only
      by_cases hm : le16 m0 m1 = 0x296
      · rw [if_neg (by simpa using hm), if_pos (this.mpr hm)]
        congr 1
        congr 1 <;> simp only [le32, wordAt, List.getD_cons_succ, List.getD_cons_zero] <;> omega
      · rw [if_pos (by simpa using hm), if_neg (fun h => hm (this.mp h))]
  · rw [if_neg (fun h => hl h.1)]
    rcases parse_cases' (slice b 0 16) with h | ⟨h, _⟩
    · exact h
    · rw [length_slice] at h; omega

/-- what `openHeader` makes of a file -/
theorem openHeader_said {b : Bytes} {h : AHeader} (ho : openHeader b = .ok h) :
    h.imageSize = diskBytes b ∧ h.sectorSize = diskSectorSize b ∧ h.maxSectors = (diskSaidOf b).sectors ∧
    (isAtr b → h.headerOffset = 16 ∧ h.crc = wordAt b 7 + 65536 * wordAt b 9 ∧ h.unused = wordAt b 11 + 65536 * wordAt b 13 ∧ h.flags = (b.getD 15 0).toNat) ∧
    (¬ isAtr b → h.headerOffset = 0) := by
  unfold openHeader readHeader at ho
  rw [parse_header] at ho
  unfold diskSaidOf diskSectorSize diskBytes
  by_cases ha : isAtr b
  · simp only [if_pos ha, AHeader.checkSize] at ho ⊢
    generalize b.length - 16 = n at ho ⊢
    by_cases c1 : n = 92160 ∨ n = 92176
    · simp [c1] at ho; subst ho
      rcases c1 with rfl | rfl <;> simp [ha]
    by_cases c2 : n = 184320 ∨ n = 184336
    · simp [c1, c2] at ho; subst ho
      rcases c2 with rfl | rfl <;> simp [ha]
    by_cases c3 : n = 183936 ∨ n = 183952
    · simp [c1, c2, c3] at ho; subst ho
      rcases c3 with rfl | rfl <;> simp [ha]
    simp [c1, c2, c3] at ho
    split at ho
    · cases ho
    injection ho with ho
    subst ho
    simp only
    rw [if_neg (by omega), if_neg (by omega), if_neg (by omega), if_neg (by omega)]
    simp [ha]
  · simp only [if_neg ha, AHeader.checkSize] at ho ⊢
    rw [Nat.sub_zero] at ho ⊢
    generalize b.length = n at ho ⊢
    by_cases c1 : n = 92160 ∨ n = 92176
    · simp [c1] at ho; subst ho
      rcases c1 with rfl | rfl <;> simp [ha]
    by_cases c2 : n = 184320 ∨ n = 184336
    · simp [c1, c2] at ho; subst ho
      rcases c2 with rfl | rfl <;> simp [ha]
    by_cases c3 : n = 183936 ∨ n = 183952
    · simp [c1, c2, c3] at ho; subst ho
      rcases c3 with rfl | rfl <;> simp [ha]
    simp [c1, c2, c3] at ho
    subst ho
    simp only
    rw [if_neg (by omega), if_neg (by omega), if_neg (by omega), if_neg (by omega)]
    simp [ha]

theorem readGeometry_text (n s k : Nat) (t : Text) :
    readGeometry ("(size=".toList ++ (pctD n ++ (" (".toList ++ (pctD s ++ ("x".toList ++ (pctD k ++ ("B)".toList ++ t))))))) = some (n, s, k, t) := by
  unfold readGeometry
  rw [expect_append]
  simp only [Option.bind_eq_bind, Option.bind_some]
  rw [number_pctD n (by exact noDigit_cons (by rfl))]
  simp only [Option.bind_some]
  rw [expect_append]
  simp only [Option.bind_some]
  rw [number_pctD s (by exact noDigit_cons (by rfl))]
  simp only [Option.bind_some]
  rw [expect_append]
  simp only [Option.bind_some]
  rw [number_pctD k (by exact noDigit_cons (by rfl))]
  simp only [Option.bind_some]
  rw [expect_append]
  rfl

/-- **C107, the disk.** Size, number of sectors and sector size, and the checksum, the flags and the unused field of an ATR header are those of the file.
(The line of an XFD image lacks the closing parenthesis.) -/
theorem C107_disk {b : Bytes} {h : AHeader} (ho : openHeader b = .ok h) (t : Text) : readDisk (h.summary ++ t) = some (diskSaidOf b, t) := by
  obtain ⟨h1, h2, h3, h4, h5⟩ := openHeader_said ho
  unfold AHeader.summary readDisk
  by_cases ha : isAtr b
  · obtain ⟨a1, a2, a3, a4⟩ := h4 ha
    rw [if_pos a1]
    have e : ("ATR Disk Image (size=".toList ++ pctD h.imageSize ++ " (".toList ++ pctD h.maxSectors ++ ['x'] ++ pctD h.sectorSize ++ "B), crc=".toList ++
        pctD h.crc ++ " flags=".toList ++ pctD h.flags ++ " unused=".toList ++ pctD h.unused ++ [')']) ++ t =
        "ATR Disk Image ".toList ++ ("(size=".toList ++ (pctD h.imageSize ++ (" (".toList ++ (pctD h.maxSectors ++ ("x".toList ++ (pctD h.sectorSize ++
        ("B)".toList ++ (", crc=".toList ++ (pctD h.crc ++ (" flags=".toList ++ (pctD h.flags ++ (" unused=".toList ++ (pctD h.unused ++ (")".toList ++ t)))))))))))))) := by
      rw [show "ATR Disk Image (size=".toList = "ATR Disk Image ".toList ++ "(size=".toList from rfl, show "B), crc=".toList = "B)".toList ++ ", crc=".toList from rfl]
      simp only [List.append_assoc]
      rfl
    rw [e]
    have : readAtr ("ATR Disk Image ".toList ++ ("(size=".toList ++ (pctD h.imageSize ++ (" (".toList ++ (pctD h.maxSectors ++ ("x".toList ++ (pctD h.sectorSize ++
        ("B)".toList ++ (", crc=".toList ++ (pctD h.crc ++ (" flags=".toList ++ (pctD h.flags ++ (" unused=".toList ++ (pctD h.unused ++ (")".toList ++ t)))))))))))))))
        = some (diskSaidOf b, t) := by
      unfold readAtr
      rw [expect_append]
      simp only [Option.bind_eq_bind, Option.bind_some]
      rw [readGeometry_text]
      simp only [Option.bind_some]
      rw [expect_append]
      simp only [Option.bind_some]
      rw [number_pctD h.crc (by exact noDigit_cons (by rfl))]
      simp only [Option.bind_some]
      rw [expect_append]
      simp only [Option.bind_some]
      rw [number_pctD h.flags (by exact noDigit_cons (by rfl))]
      simp only [Option.bind_some]
      rw [expect_append]
      simp only [Option.bind_some]
      rw [number_pctD h.unused (by exact noDigit_cons (by rfl))]
      simp only [Option.bind_some]
      rw [expect_append]
      rw [h1, h2, h3, a2, a3, a4]
      unfold diskSaidOf
      rw [if_pos ha]
      rfl
    rw [this]
    rfl
  · rw [if_neg (by rw [h5 ha]; decide)]
    have e : ("XFD Disk Image (size=".toList ++ pctD h.imageSize ++ " (".toList ++ pctD h.maxSectors ++ ['x'] ++ pctD h.sectorSize ++ "B)".toList) ++ t =
        "XFD Disk Image ".toList ++ ("(size=".toList ++ (pctD h.imageSize ++ (" (".toList ++ (pctD h.maxSectors ++ ("x".toList ++ (pctD h.sectorSize ++
        ("B)".toList ++ t))))))) := by
      rw [show "XFD Disk Image (size=".toList = "XFD Disk Image ".toList ++ "(size=".toList from rfl]
      simp only [List.append_assoc]
      rfl
    rw [e]
    have : ∀ r, readAtr ("XFD Disk Image ".toList ++ r) = none := fun r => by
      unfold readAtr
      rw [show expect "ATR Disk Image ".toList ("XFD Disk Image ".toList ++ r) = none from rfl]
      rfl
    rw [this, Option.none_or, expect_append]
    simp only [Option.bind_eq_bind, Option.bind_some]
    rw [readGeometry_text]
    simp only [Option.bind_some]
    rw [h1, h2, h3]
    unfold diskSaidOf
    rw [if_neg ha]
    rfl

/-! ### what it holds -/

theorem readUsable_text (n f k : Nat) :
    readUsable (pctD n ++ (" usable sectors (".toList ++ (pctD f ++ (" free), ".toList ++ (pctD k ++ " files".toList))))) = some (n, f, k) := by
  unfold readUsable
  rw [number_pctD n (by exact noDigit_cons (by rfl))]
  simp only [Option.bind_eq_bind, Option.bind_some]
  rw [expect_append]
  simp only [Option.bind_some]
  rw [number_pctD f (by exact noDigit_cons (by rfl))]
  simp only [Option.bind_some]
  rw [expect_append]
  simp only [Option.bind_some]
  rw [number_pctD k (by exact noDigit_cons (by rfl))]
  simp only [Option.bind_some, if_true]
  rfl

theorem readHolds_atari (n f k : Nat) : readHolds (" Atari DOS Format: ".toList ++ (pctD n ++ (" usable sectors (".toList ++ (pctD f ++ (" free), ".toList ++
    (pctD k ++ " files".toList)))))) = some (.atariDos n f k) := by
  unfold readHolds
  rw [if_neg (fun h => absurd (show 'A' = 'B' from congrArg (·.getD 1 ' ') h) (by decide)), if_neg (fun h => absurd (show 'A' = 'U' from congrArg (·.getD 1 ' ') h) (by decide)),
    expect_append]
  simp only
  rw [readUsable_text]
  rfl

theorem readHolds_sparta (n f k : Nat) : readHolds (" Sparta DOS Format: ".toList ++ (pctD n ++ (" usable sectors (".toList ++ (pctD f ++ (" free), ".toList ++
    (pctD k ++ " files".toList)))))) = some (.spartaDos n f k) := by
  unfold readHolds
  rw [if_neg (fun h => absurd (show 'S' = 'B' from congrArg (·.getD 1 ' ') h) (by decide)), if_neg (fun h => absurd (show 'S' = 'U' from congrArg (·.getD 1 ' ') h) (by decide))]
  rw [show ∀ r, expect " Atari DOS Format: ".toList (" Sparta DOS Format: ".toList ++ r) = none from fun r => rfl]
  simp only
  rw [expect_append]
  simp only
  rw [readUsable_text]
  rfl

theorem readHolds_kboot (n : Nat) : readHolds (" KBoot Format: ".toList ++ (pctD n ++ " byte executable".toList)) = some (.kboot n) := by
  unfold readHolds
  rw [if_neg (fun h => absurd (show 'K' = 'B' from congrArg (·.getD 1 ' ') h) (by decide)), if_neg (fun h => absurd (show 'K' = 'U' from congrArg (·.getD 1 ' ') h) (by decide))]
  rw [show ∀ r, expect " Atari DOS Format: ".toList (" KBoot Format: ".toList ++ r) = none from fun r => rfl]
  simp only
  rw [show ∀ r, expect " Sparta DOS Format: ".toList (" KBoot Format: ".toList ++ r) = none from fun r => rfl]
  simp only
  rw [expect_append]
  simp only
  unfold readExeBytes
  rw [number_pctD n (by exact noDigit_cons (by rfl))]
  rfl

theorem readDiskLine_of {b : Bytes} {h : AHeader} (ho : openHeader b = .ok h) {t : Text} {x : HoldsSaid} (ht : readHolds t = some x) :
    readDiskLine (h.summary ++ t) = some (diskSaidOf b, x) := by
  unfold readDiskLine
  rw [C107_disk ho]
  simp only [Option.bind_eq_bind, Option.bind_some]
  rw [ht]
  rfl

/-- what the VTOC of a disk that opens says -/
theorem atari_open_vtoc {b : Bytes} {m : AImg} (hm : AImg.open b = .ok m) : openHeader b = .ok m.hdr ∧
    m.total = wordAt (sectorBytes m.hdr b 360) 1 ∧
    m.unused = (wordAt (sectorBytes m.hdr b 360) 3 + if m.hdr.imageSize = 133120 then wordAt (sectorBytes m.hdr b 1024) 122 else 0) % 65536 := by
  unfold AImg.open at hm
  cases ho : openHeader b with
  | error e => rw [ho] at hm; cases hm
  | ok h =>
    rw [ho] at hm
    have g := openHeader_geom ho
    simp only at hm
    unfold AImg.getMetadata at hm
    cases hv : AImg.getVtoc { hdr := h, bytes := b } with
    | mk r m1 =>
      obtain ⟨k1, k2, k3⟩ := getVtoc_keeps hv
      simp only at k1 k2
      rw [hv] at hm
      cases r with
      | error e => cases hm
      | ok u =>
        simp only at hm
        have key : m.hdr = h ∧ m.total = m1.total ∧ m.unused = m1.unused := by
          unfold AImg.getDirectory at hm
          by_cases hmax : 368 ≤ h.maxSectors
          · rw [k1, k2, getSectors_range g hmax] at hm
            simp only at hm
            cases hs : scanDir h 0 (chunks 16 (dirBytes h b)) with
            | error e => rw [hs] at hm; cases hm
            | ok ds =>
              rw [hs] at hm
              simp only at hm
              split at hm
              · cases hm
              · rename_i heq
                split at heq
                · cases heq
                  cases hm
                  exact ⟨rfl, rfl, rfl⟩
                · cases heq
          · obtain ⟨e, he⟩ := getSectors_361 g hmax
            rw [k1, k2, he] at hm
            cases hm
        obtain ⟨e1, e2, e3⟩ := key
        rw [e1, e2, e3]
        refine ⟨rfl, ?_⟩
        clear hm e2 e3 k3
        unfold AImg.getVtoc at hv
        simp only at hv
        rw [getSectors_one_eq] at hv
        unfold sectorBytes
        cases hp : h.getPos 360 with
        | error e => rw [hp] at hv; cases hv
        | ok x =>
          obtain ⟨p, n⟩ := x
          rw [hp] at hv
          simp only at hv ⊢
          generalize hd : slice b p (p + n) = d at hv ⊢
          have hd5 : slice d 0 5 = d.take 5 := slice_zero _ _
          rw [hd5] at hv
          match d, hv with
          | [], hv => cases hv
          | [_], hv => cases hv
          | [_, _], hv => cases hv
          | [_, _, _], hv => cases hv
          | [_, _, _, _], hv => cases hv
          | code :: t0 :: t1 :: u0 :: u1 :: dr, hv =>
            simp only [List.take_succ_cons, List.take_zero] at hv
            generalize (if code.toNat = 0 ∨ code.toNat = 2 then (1 : Int) else (code.toNat : Int) * 2 - 3) = num at hv
            split at hv
            · cases hv
            split at hv
            · cases hv
            split at hv
            · rename_i h133
              rw [getSectors_one_eq] at hv
              cases hp2 : h.getPos 1024 with
              | error e => rw [hp2] at hv; cases hv
              | ok x2 =>
                obtain ⟨p2, n2⟩ := x2
                rw [hp2] at hv
                simp only at hv ⊢
                generalize slice b p2 (p2 + n2) = d2 at hv ⊢
                have hx : slice d2 122 124 = (d2.drop 122).take 2 := by
                  unfold slice
                  rw [List.drop_take]
                have hw : wordAt d2 122 = ((d2.drop 122).getD 0 0).toNat + 256 * ((d2.drop 122).getD 1 0).toNat := by
                  unfold wordAt
                  simp only [List.getD_eq_getElem?_getD, List.getElem?_drop]
                rw [hx] at hv
                rw [hw, if_pos h133]
                generalize d2.drop 122 = r2 at hv ⊢
                match r2, hv with
                | [], hv => cases hv
                | [_], hv => cases hv
                | x0 :: x1 :: rr, hv =>
                  cases hv
                  exact ⟨rfl, rfl⟩
            · rename_i h133
              rw [if_neg h133]
              cases hv
              refine ⟨rfl, ?_⟩
              show le16 u0 u1 = _
              have := u0.toNat_lt
              have := u1.toNat_lt
              show u0.toNat + 256 * u1.toNat = (u0.toNat + 256 * u1.toNat + 0) % 65536
              omega

/-- **C107, Atari DOS.** The numbers of usable and free sectors are those in the VTOC (the second VTOC adds its free sectors), and the files are those of the
directory that are in use: as many as `list` prints. -/
theorem C107_atari {b : Bytes} {m : AImg} (hm : AImg.open b = .ok m) : readDiskLine m.summary = some (diskSaidOf b, .atariDos
    (wordAt (sectorBytes m.hdr b 360) 1)
    ((wordAt (sectorBytes m.hdr b 360) 3 + if diskBytes b = 133120 then wordAt (sectorBytes m.hdr b 1024) 122 else 0) % 65536)
    (atariFiles (dirBytes m.hdr b)).length) := by
  obtain ⟨ho, h1, h2⟩ := atari_open_vtoc hm
  have hf := congrArg List.length (C87_atari hm)
  rw [List.length_map, List.length_map] at hf
  rw [← hf, ← (openHeader_said ho).1, ← h1, ← h2]
  unfold AImg.summary
  simp only [List.append_assoc]
  exact readDiskLine_of ho (readHolds_atari _ _ _)

/-- **C107, SpartaDOS.** The numbers of sectors and of free ones are those in the boot record; the number of files is the number of records in the root directory
(`C107_sparta_refuted` shows that these need not be files). -/
theorem C107_sparta {b : Bytes} {m : SImg} (hm : SImg.open b = .ok m) : readDiskLine m.summary = some (diskSaidOf b, .spartaDos
    (wordAt (sectorBytes m.hdr b 1) 11) (wordAt (sectorBytes m.hdr b 1) 13) m.files.length) := by
  unfold SImg.open at hm
  split at hm
  · cases hm
  rename_i h ho
  split at hm
  · cases hm
  rename_i root hb
  split at hm
  · cases hm
  cases hm
  simp only
  unfold spartaBoot at hb
  have hfree : ∀ root ds, SImg.free { hdr := h, bytes := b, rootDir := root, files := ds } = wordAt (sectorBytes h b 1) 13 := by
    intro root ds
    unfold SImg.free sectorBytes
    rw [getSectors_one_eq]
    cases h.getPos 1 with
    | error e => rfl
    | ok x => rfl
  have htot : h.maxSectors = wordAt (sectorBytes h b 1) 11 := by
    unfold sectorBytes
    rw [getSectors_one_eq] at hb
    cases hp : h.getPos 1 with
    | error e => rw [hp] at hb; cases hb
    | ok x =>
      rw [hp] at hb
      simp only at hb ⊢
      split at hb
      · cases hb
      · split at hb
        · rename_i hc
          exact hc.1.symm
        · cases hb
  unfold SImg.summary
  rw [hfree]
  simp only [List.append_assoc]
  rw [htot]
  exact readDiskLine_of ho (readHolds_sparta _ _ _)

/-- **C107 does not hold for SpartaDOS disks**: deleted files are counted as well. -/
theorem C107_sparta_refuted : ∃ (b : Bytes) (m : SImg) (d : DiskSaid) (u f : Nat), SImg.open b = .ok m ∧
    readDiskLine m.summary = some (d, .spartaDos u f 3) ∧ ((m.files.map SDirent.info).filter fun i => i.inUse && !i.deleted).length = 2 := by
  obtain ⟨m, hm, hi, -⟩ := sparta_deleted_listed
  refine ⟨m.bytes, m, diskSaidOf m.bytes, wordAt (sectorBytes m.hdr m.bytes 1) 11, wordAt (sectorBytes m.hdr m.bytes 1) 13, hm, ?_, by rw [hi]; rfl⟩
  have : m.files.length = 3 := by rw [← List.length_map (f := SDirent.info), hi]; rfl
  rw [C107_sparta hm, this]

/-- **C107, KBoot.** The length of the executable. -/
theorem C107_kboot {b : Bytes} {m : HImg} (hm : openKboot b = .ok m) : kbootFile b = .ok m.exe ∧
    readDiskLine m.summaryKboot = some (diskSaidOf b, .kboot m.exe.length) := by
  unfold openKboot at hm
  split at hm
  · cases hm
  rename_i h ho
  cases hk : kbootFile b with
  | error e => rw [hk] at hm; cases hm
  | ok exe =>
    rw [hk] at hm
    cases hm
    refine ⟨rfl, ?_⟩
    unfold HImg.summaryKboot
    simp only [List.append_assoc]
    exact readDiskLine_of ho (readHolds_kboot _)

/-- **C107, boot disks.** -/
theorem C107_boot {b : Bytes} {m : HImg} (hm : openBoot b = .ok m) : readDiskLine m.summaryBoot = some (diskSaidOf b, .boot) := by
  unfold openBoot at hm
  split at hm
  · cases hm
  rename_i h ho
  cases hk : bootCheckSize h b with
  | error e => rw [hk] at hm; cases hm
  | ok u =>
    rw [hk] at hm
    cases hm
    exact readDiskLine_of ho (by decide)

/-- **C107, other Atari disks.** -/
theorem C107_plain {b : Bytes} {m : HImg} (hm : openDisk b = .ok m) : readDiskLine m.summaryDisk = some (diskSaidOf b, .unknown) := by
  unfold openDisk at hm
  cases ho : openHeader b with
  | error e => rw [ho] at hm; cases hm
  | ok h =>
    rw [ho] at hm
    cases hm
    exact readDiskLine_of ho (by decide)

/-- **C107, DOS 3.3.** The size of the file and the number of sectors in the VTOC. -/
theorem C107_dos33 {b : Bytes} {m : DImg} (hm : DImg.open b = .ok m) : readAppleLine m.summary = some (b.length, sectors33 b, 256) := by
  obtain ⟨_, _, h1, _, h2, _⟩ := C77_opens _ _ hm
  unfold DImg.summary readAppleLine
  rw [h1, h2, show "DOS 3.3 Disk Image (size=".toList = "DOS 3.3 Disk Image ".toList ++ "(size=".toList from rfl]
  have := readGeometry_text b.length (sectors33 b) 256 []
  simp only [List.append_assoc, List.append_nil] at this ⊢
  rw [expect_append]
  simp only [Option.bind_eq_bind, Option.bind_some]
  rw [show ['x'] = "x".toList from rfl, this]
  rfl

/-- **C107 does not hold for DOS 3.3 disks**: the sectors of the line need not be those of the file. -/
theorem C107_dos33_refuted : ∃ (b : Bytes) (m : DImg), DImg.open b = .ok m ∧ readAppleLine m.summary = some (143360, 1600, 256) := by
  obtain ⟨m, hm, _⟩ := open_wideDisk
  refine ⟨wideDisk, m, hm, ?_⟩
  rw [C107_dos33 hm, wideDisk_volume.size, wideDisk_sectors]

/-! ### cartridges -/

/-- the name in the table of types -/
def cartName (t : Nat) : Text := (((cartNames.find? fun c => c.1 == t).map (·.2)).getD "").toList

theorem readCartLine_summary (h : CartHeader) : readCartLine h.summary = some {
    name := match h.cartType with | some t => cartName t | none => []
    type := match h.cartType with | some t => (t : Int) | none => -1
    kilobytes := h.cartSize
    banks := h.bankSize
    crc := h.crc } := by
  unfold CartHeader.summary readCartLine
  rw [show [')'] = ")".toList from rfl, endsIn_append]
  simp only [Option.bind_eq_bind, Option.bind_some]
  rw [lastDec_pctD h.crc (by rw [show " banks, crc=".toList = " banks, crc".toList ++ ['='] from rfl, ← List.append_assoc]; exact noLast_snoc (by rfl))]
  simp only [Option.bind_some]
  rw [endsIn_append]
  simp only [Option.bind_some]
  rw [lastDec_pctD h.bankSize (by rw [show ", ".toList = ",".toList ++ [' '] from rfl, ← List.append_assoc]; exact noLast_snoc (by rfl))]
  simp only [Option.bind_some]
  rw [endsIn_append]
  simp only [Option.bind_some]
  rw [lastDec_pctD h.cartSize (by rw [show " size=".toList = " size".toList ++ ['='] from rfl, ← List.append_assoc]; exact noLast_snoc (by rfl))]
  simp only [Option.bind_some]
  rw [endsIn_append]
  simp only [Option.bind_some]
  cases h.cartType with
  | some t =>
    simp only
    rw [lastDec_pctD t (by
      rw [show " Cartridge (atari800 type=".toList = " Cartridge (atari800 type".toList ++ ['='] from rfl, ← List.append_assoc]; exact noLast_snoc (by rfl))]
    simp only [Option.bind_some]
    rw [endsIn_append]
    rfl
  | none =>
    have e : lastDec (([] : Text) ++ " Cartridge (atari800 type=".toList ++ pctD (-1)) = some (1, " Cartridge (atari800 type=-".toList) := by decide +kernel
    simp only
    rw [e]
    simp only [Option.bind_some]
    rw [show endsIn " Cartridge (atari800 type=".toList " Cartridge (atari800 type=-".toList = none by decide +kernel]
    simp only
    rw [show endsIn " Cartridge (atari800 type=-".toList " Cartridge (atari800 type=-".toList = some [] by decide +kernel]
    rfl

theorem setType_type {h h' : CartHeader} {t : Nat} (e : h.setType t = .ok h') : h'.cartType = some t := by
  unfold CartHeader.setType at e
  split at e
  · cases e
  · rename_i c _
    simp only at e
    generalize c.rest = r at e
    match r, e with
    | [], e => cases e; rfl
    | [_], e => cases e; rfl
    | [_, _], e => cases e; rfl
    | [_, _, _], e => cases e; rfl
    | [_, _, _, _], e => cases e; rfl
    | [_, _, _, _, _], e => cases e; rfl
    | _ :: _ :: _ :: _ :: _ :: _ :: _, e => cases e; rfl

/-- `setType` leaves the checksum alone -/
theorem setType_crc (x t : Nat) : CartHeader.setType { crc := x, headerOffset := 16 } t =
    (CartHeader.setType { headerOffset := 16 } t).map fun h => { h with crc := x } := by
  unfold CartHeader.setType
  cases getCart t with
  | error e => rfl
  | ok c =>
    simp only
    match c.rest with
    | [] => rfl
    | [_] => rfl
    | [_, _] => rfl
    | [_, _, _] => rfl
    | [_, _, _, _] => rfl
    | [_, _, _, _, _] => rfl
    | _ :: _ :: _ :: _ :: _ :: _ :: _ => rfl

/-- what a cartridge that is accepted says -/
theorem cart_strict_header {data : Bytes} {t : Nat} {five : Bool} {h : CartHeader} (ho : openCart data t = .ok h) (hs : cartStrictCheck h t five = .ok ()) :
    CartHeader.setType { crc := be32 (data.getD 8 0) (data.getD 9 0) (data.getD 10 0) (data.getD 11 0), headerOffset := 16 } t = .ok h := by
  have hty : h.cartType = some t := (C31_strict ho hs).2.1
  unfold openCart at ho
  split at ho
  · cases ho
  split at ho
  · cases ho
  rename_i h' hr
  split at ho
  · cases ho
  cases ho
  unfold readCartHeader at hr
  split at hr
  · rename_i heq
    cases hr
    cases hty
  · have hl : data.length ≥ 16 := by
      refine Nat.le_of_not_lt fun hlt => ?_
      have : (data.take 16).length < 16 := by rw [List.length_take]; omega
      generalize data.take 16 = d at hr this
      unfold CartHeader.decode at hr
      split at hr
      · simp at this
      · cases hr
    match data, hl with
    | m0 :: m1 :: m2 :: m3 :: t0 :: t1 :: t2 :: t3 :: c0 :: c1 :: c2 :: c3 :: u0 :: u1 :: u2 :: u3 :: r, _ =>
      rw [show (m0 :: m1 :: m2 :: m3 :: t0 :: t1 :: t2 :: t3 :: c0 :: c1 :: c2 :: c3 :: u0 :: u1 :: u2 :: u3 :: r).take 16 =
        [m0, m1, m2, m3, t0, t1, t2, t3, c0, c1, c2, c3, u0, u1, u2, u3] from rfl] at hr
      unfold CartHeader.decode at hr
      simp only at hr
      split at hr
      · cases hr
      · have : be32 t0 t1 t2 t3 = t := by
          have h2 := setType_type hr
          rw [hty] at h2
          exact (Option.some.inj h2).symm
        rw [this] at hr
        exact hr

/-- the rows of the table: the number of kilobytes, and what is printed as the number of banks beside the number of banks there are -/
theorem cart_rows : ∀ c ∈ knownCarts, ∃ h, CartHeader.setType { headerOffset := 16 } c.id = .ok h ∧ h.cartType = some c.id ∧ h.cartSize = c.size ∧
    (h.bankSize = h.banks.length ↔ h.banks = []) ∧
    (h.banks ≠ [] → (h.bankSize = h.banks.length + 1 ↔ c.id ∈ [3, 45, 13, 67, 34])) := by
  have : ∀ c ∈ knownCarts, (match CartHeader.setType { headerOffset := 16 } c.id with
      | .error _ => false
      | .ok h => h.cartType == some c.id && h.cartSize == c.size && ((h.bankSize == h.banks.length) == h.banks.isEmpty) &&
        (h.banks.isEmpty || ((h.bankSize == h.banks.length + 1) == [3, 45, 13, 67, 34].contains c.id))) = true := by decide +kernel
  intro c hc
  have h := this c hc
  split at h
  · cases h
  · rename_i x hx
    simp only [Bool.and_eq_true, beq_iff_eq, Bool.or_eq_true] at h
    obtain ⟨⟨⟨h1, h2⟩, h3⟩, h4⟩ := h
    refine ⟨x, hx, h1, h2, ?_, fun hne => ?_⟩
    · rw [← List.isEmpty_iff, ← h3, beq_iff_eq]
    · rcases h4 with h4 | h4
      · exact absurd (List.isEmpty_iff.mp h4) hne
      · rw [← List.elem_iff, ← List.contains, ← h4, beq_iff_eq]

/-- **C107, cartridges.** Name, number of the type, kilobytes after the header and checksum.  What is called the number of banks is the size of a bank in
kilobytes: it is the number of the banks of `list -v` only if there are none, and one more than it for five types. -/
theorem C107_cart {data : Bytes} {t : Nat} {five : Bool} {h : CartHeader} (ho : openCart data t = .ok h) (hs : cartStrictCheck h t five = .ok ()) :
    ∃ s, readCartLine h.summary = some s ∧ s.name = cartName t ∧ s.type = t ∧ data.length = 16 + s.kilobytes * 1024 ∧
      s.crc = (data.getD 8 0).toNat * 2 ^ 24 + (data.getD 9 0).toNat * 2 ^ 16 + (data.getD 10 0).toNat * 2 ^ 8 + (data.getD 11 0).toNat ∧
      (s.banks = h.banks.length ↔ h.banks = []) ∧ (h.banks ≠ [] → (s.banks = h.banks.length + 1 ↔ t ∈ [3, 45, 13, 67, 34])) := by
  have hh := cart_strict_header ho hs
  obtain ⟨_, _, c, hc, hid, _, hlen⟩ := (C65_strict_iff data t five).mp ⟨h, ho, hs⟩
  obtain ⟨x, hx, h1, h2, h3, h4⟩ := cart_rows c hc
  rw [setType_crc, ← hid, hx] at hh
  cases hh
  rw [hid] at h1 h4
  refine ⟨_, readCartLine_summary _, ?_, ?_, ?_, ?_, h3, h4⟩
  · simp only [h1]
  · simp only [h1]
  · simp only [h2]; exact hlen
  · simp only [be32, le32]; omega

/-- **C107 does not hold for cartridges**: a cartridge of type 12 has three banks beside the main one, and the line says eight. -/
theorem C107_cart_refuted : ∃ (data : Bytes) (h : CartHeader) (s : CartSaid), openCart data 12 = .ok h ∧ cartStrictCheck h 12 false = .ok () ∧
    readCartLine h.summary = some s ∧ s.banks = 8 ∧ h.banks.length = 3 := by
  have hl : ([0x43, 0x41, 0x52, 0x54, 0, 0, 0, 12, 1, 2, 3, 4, 0, 0, 0, 0] ++ List.replicate 32768 (0xea : UInt8)).length = 16 + 32 * 1024 := by
    rw [List.length_append, List.length_replicate]; rfl
  obtain ⟨h, h1, h2⟩ := (C65_strict_iff ([0x43, 0x41, 0x52, 0x54, 0, 0, 0, 12, 1, 2, 3, 4, 0, 0, 0, 0] ++ List.replicate 32768 0xea) 12 false).mpr
    ⟨⟨by rw [hl]; decide, by rfl⟩, by rfl, ⟨12, false, 32, [8, 24, 40960, 8, 0, 32768]⟩, by decide +kernel, rfl, rfl, by rw [hl]⟩
  have h3 := cart_strict_header h1 h2
  rw [setType_crc] at h3
  have h4 : h.bankSize = 8 ∧ h.banks.length = 3 := by
    have hx : ((CartHeader.setType { headerOffset := 16 } 12).toOption.map fun x => (x.bankSize, x.banks.length)) = some (8, 3) := by decide +kernel
    cases hy : CartHeader.setType { headerOffset := 16 } 12 with
    | error e => rw [hy] at h3; cases h3
    | ok x =>
      rw [hy] at h3 hx
      cases h3
      have := Option.some.inj hx
      exact ⟨congrArg Prod.fst this, congrArg Prod.snd this⟩
  exact ⟨_, h, _, h1, h2, readCartLine_summary h, h4.1, h4.2⟩

/-! ### archives and ROM images -/

theorem readMameLine_text (n s u : Nat) :
    readMameLine ("MAME Zip file, ".toList ++ (pctD n ++ (" ROMs, orig_size=".toList ++ (pctD s ++ (", uncompressed=".toList ++ pctD u))))) = some (n, s, u) := by
  unfold readMameLine
  rw [expect_append]
  simp only [Option.bind_eq_bind, Option.bind_some]
  rw [number_pctD n (by exact noDigit_cons (by rfl))]
  simp only [Option.bind_some]
  rw [expect_append]
  simp only [Option.bind_some]
  rw [number_pctD s (by exact noDigit_cons (by rfl))]
  simp only [Option.bind_some]
  rw [expect_append]
  simp only [Option.bind_some]
  have := number_pctD u noDigit_nil
  rw [List.append_nil] at this
  rw [this]
  rfl

/-- **C107, MAME archives.** The number of files in the archive, the size of the archive and the number of bytes of all files together. -/
theorem C107_mame (b : Bytes) (items : List ZipItem) (hne : items ≠ []) (hsz : ∀ i ∈ items, i.data.length = i.fileSize) (h16 : ∀ i ∈ items, i.fileSize % 16 = 0) :
    ∃ data ranges, openMame items = .ok (data, ranges) ∧
      readMameLine (mameSummary b.length data ranges) = some (items.length, b.length, (items.map (·.data.length)).sum) := by
  obtain ⟨data, ranges, h1, h2, _⟩ := C54_mame items hne hsz h16
  refine ⟨data, ranges, h1, ?_⟩
  have hlen : ranges.length = items.length := by
    have := congrArg List.length h2
    rwa [List.length_map, List.length_map] at this
  have hd : data.length = (items.map (·.data.length)).sum := by
    unfold openMame at h1
    split at h1
    · cases h1
    split at h1
    · cases h1
    cases h1
    rw [List.length_flatten, List.map_map]
    rfl
  unfold mameSummary
  simp only [List.append_assoc]
  rw [readMameLine_text, hlen, hd]

/-- the kind of ROM image -/
def romKind : Mime → Text
  | .cart2600 => "Atari 2600 Cartridge".toList
  | .starpath => "Atari 2600 Starpath Cassette".toList
  | .vectrex => "Vectrex Cartridge".toList
  | _ => "ROM image".toList

/-- **C107, ROM images.** Whole kilobytes (what is left over is not mentioned) and the kind. -/
theorem C107_rom (t : Mime) (b : Bytes) : ∃ n, readRomLine (romSummary t b) = some (n, romKind t) ∧ n * 1024 ≤ b.length ∧ b.length < (n + 1) * 1024 := by
  refine ⟨b.length / 1024, ?_, by omega, by omega⟩
  unfold romSummary readRomLine
  have key : ∀ k : Text, (do
      let (n, t) ← number (pctD (b.length / 1024 : Nat) ++ ("k ".toList ++ k))
      return (n, ← expect "k ".toList t) : Option (Nat × List Char)) = some (b.length / 1024, k) := fun k => by
    rw [number_pctD _ (by exact noDigit_cons (by rfl))]
    simp only [Option.bind_eq_bind, Option.bind_some]
    rw [expect_append]
    rfl
  cases t <;> exact key _

/-- **C107 does not hold for ROM images that are no whole number of kilobytes**: 512 bytes are said to be none. -/
theorem C107_rom_refuted : ∃ b : Bytes, b.length = 512 ∧ readRomLine (romSummary .rom b) = some (0, "ROM image".toList) :=
  ⟨List.replicate 512 0, List.length_replicate, by decide +kernel⟩

/-! ### executables -/

theorem filesSummary_stdout {l : List LSeg} (hne : l ≠ []) : filesSummary l = stdout (l.map LSeg.line) := by
  unfold filesSummary
  induction l with
  | nil => exact absurd rfl hne
  | cons s l ih =>
    cases l with
    | nil => simp [joined, stdout]
    | cons s' l =>
      have h := ih (by simp)
      rw [List.map_cons, List.map_cons]
      show (s.line ++ ['\n'] ++ joined ['\n'] (s'.line :: l.map LSeg.line)) ++ ['\n'] = (s.line ++ ['\n']) ++ stdout (s'.line :: l.map LSeg.line)
      rw [List.append_assoc]
      exact congrArg _ h

theorem oneLine_pctX (w : Nat) (i : Int) : OneLine (pctX w i) := by
  have h : ∀ n, OneLine (Nat.toDigits 16 n) := fun n hm => absurd (digits_isHex n _ hm) (by decide)
  cases i with
  | ofNat n => exact oneLine_append (oneLine_fill _ (by decide)) (h n)
  | negSucc n => exact fun hm => (List.mem_cons.mp hm).elim (by decide) (oneLine_append (oneLine_fill _ (by decide)) (h _))

theorem oneLine_obj {name : Text} (hn : OneLine name) (origin : Int) (size pos : Nat) : OneLine (LSeg.obj name origin size pos).line := by
  unfold LSeg.line
  have hx := oneLine_pctX 4
  exact oneLine_append (oneLine_append (oneLine_append (oneLine_append (oneLine_append (oneLine_append (oneLine_append (oneLine_append (oneLine_append hn
    (by decide)) (hx _)) (by decide)) (hx _)) (by decide)) (hx _)) (by decide)) (hx _)) (by decide)

/-- **C107, executables.** One line per segment; for a complete one address, length and position are those in the file (see C99). -/
theorem C107_xex {b : Bytes} {l : List XSeg} (h : parseXex b = .ok l) (hne : l ≠ []) :
    (linesOf (filesSummary (l.map XSeg.shown))).length = l.length ∧
    ∀ (i : Nat) (s : XSeg), l[i]? = some s → s.Complete → ∃ start count pos : Nat,
      (linesOf (filesSummary (l.map XSeg.shown)))[i]?.map readSegLine = some (some (SegLine.placed [] start (start + count : Nat) count pos)) ∧
      4 ≤ pos ∧ 0 < count ∧ pos + count ≤ b.length ∧ wordAt b (pos - 4) = start ∧ wordAt b (pos - 2) + 1 = start + count ∧ slice b pos (pos + count) = s.data := by
  have e : linesOf (filesSummary (l.map XSeg.shown)) = (l.map XSeg.shown).map LSeg.line := by
    rw [filesSummary_stdout (by simpa using hne), C87_lines]
    intro t ht
    obtain ⟨s, hs, rfl⟩ := List.mem_map.mp ht
    obtain ⟨x, _, rfl⟩ := List.mem_map.mp hs
    unfold XSeg.shown
    split <;> exact oneLine_obj (by decide) _ _ _
  rw [e]
  refine ⟨by simp, fun i s hi hc => ?_⟩
  obtain ⟨r, h1, h2, h3⟩ := C99_xex h
  obtain ⟨start, count, pos, k1, k2⟩ := h3 i s hi hc
  refine ⟨start, count, pos, ?_, k2⟩
  have hr : r = (l.map XSeg.shown).map fun s => readSegLine s.line := (List.cons.inj h1).2.symm
  rw [hr] at k1
  rw [← k1, List.getElem?_map, List.getElem?_map, Option.map_map, List.getElem?_map, List.getElem?_map]
  rfl

/-- **C107, BSAVE files.** Address and length as in the first four bytes. -/
theorem C107_bin {b : Bytes} {s : Seg} (h : parseBsave b = .ok s) :
    (linesOf (filesSummary [.obj "BSAVE data".toList s.origin s.data.length 4])).map readSegLine =
      [some (.placed "BSAVE data".toList (wordAt b 0) (wordAt b 0 + wordAt b 2 : Nat) (wordAt b 2) 4)] := by
  have h1 := (C99_bin h).1
  rw [filesSummary_stdout (by simp), C87_lines]
  · exact (List.cons.inj h1).2
  · intro t ht
    rw [List.mem_singleton.mp ht]
    exact oneLine_obj (by decide) _ _ _

/-! ### examples -/

/-- the empty disk with a header of its own -/
example : readDiskLine (AHeader.summary { imageSize := 92160, maxSectors := 720, crc := 7, flags := 1, headerOffset := 16 } ++ " Boot Disk".toList) =
    some (⟨92160, 720, 128, some (7, 1, 0)⟩, .boot) := by decide +kernel

example : AHeader.summary { imageSize := 184320, sectorSize := 256, maxSectors := 720 } = "XFD Disk Image (size=184320 (720x256B)".toList := by decide +kernel

example : (linesOf (filesSummary (([⟨.obj, 6, 0x600, [1, 2, 3]⟩, ⟨.run, 13, 0x2e0, [0, 6]⟩] : List XSeg).map XSeg.shown))).map readSegLine =
    [some (.placed [] 0x600 0x603 3 6), some (.placed [] 0x2e0 0x2e2 2 13)] := by decide +kernel

example : CartHeader.summary { cartType := some 13, cartSize := 64, bankSize := 8, crc := 5 } =
    "XEGS (banks 0-7) 64 KB Cartridge (atari800 type=13 size=64, 8 banks, crc=5)".toList := by decide +kernel

example : mameSummary 900 (List.replicate 48 0) [(0, 16), (16, 48)] = "MAME Zip file, 2 ROMs, orig_size=900, uncompressed=48".toList := by decide +kernel

/-- the empty disk: 707 sectors, all of them free -/
example : ∃ m, AImg.open sdDisk = .ok m ∧ (readDiskLine m.summary).map (fun x => (x.1.size, x.1.sectors, x.2)) = some (92160, 720, .atariDos 707 707 0) := by
  refine ⟨mountRec sdH sdDisk [], mounted_sd.1, ?_⟩
  have hs : sectorBytes sdH sdDisk 360 = blankVtoc ++ List.replicate 28 0 := by
    rw [sectorBytes_data (openHeader_geom sdDisk_opens) ⟨by decide, by decide⟩]
    exact disk_sec (hdr := sdHeader) (tail := List.replicate (360 * 128) 0) rfl (by omega) (by omega) rfl rfl
  obtain ⟨h1, h2, h3, _⟩ := openHeader_said sdDisk_opens
  have hf := congrArg List.length (C87_atari mounted_sd.1)
  rw [List.length_map, List.length_map] at hf
  have key := C107_atari mounted_sd.1
  rw [← hf] at key
  rw [key]
  have e1 : (mountRec sdH sdDisk []).hdr = sdH := rfl
  have e2 : (mountRec sdH sdDisk []).bytes = sdDisk := rfl
  have e3 : (mountRec sdH sdDisk []).files.length = 0 := rfl
  have e4 : sdH.imageSize = 92160 := rfl
  have e5 : sdH.maxSectors = 720 := rfl
  rw [e4] at h1
  rw [e5] at h3
  rw [e1, e2, e3, hs, Option.map_some]
  simp only
  have e6 : ∀ b, (diskSaidOf b).size = diskBytes b := fun _ => rfl
  rw [← h3, if_neg (by rw [← h1]; decide), e6, ← h1]
  decide +kernel

end Atr
