import Verif.Spec.SpartaDir
import Verif.Props.Sparta
import Verif.Lemmas.Detect
/-!
# C78: what is listed for a SpartaDOS disk
-/
namespace Atr

/-- what the directory entry object says about the file -/
def SDirent.info (d : SDirent) : SInfo := ⟨d.basename, d.ext, d.length, d.startingSector, d.locked, d.inUse, d.deleted, d.isDir, d.openedOutput, d.stamp⟩

theorem testBit_status (x : UInt8) (k : Nat) : x.toNat.testBit k = (x.toNat / 2 ^ k % 2 == 1) := by
  rw [Nat.testBit_eq_decide_div_mod_eq]
  rfl

/-- **C78, one record.** A record is decoded as described, provided it is complete.  An entry that is in use is good if its map is on the disk, and
every other one is good as well. -/
theorem C78_record {h : AHeader} {n : Nat} (g : h.Geom n) (num : Nat) {e : Bytes} (he : e.length = 23) : ∃ d, SDirent.parse h num e = .ok d ∧ d.fileNum = num ∧
    d.info = sInfo e ∧ d.isSane = (!d.inUse || (decide (1 ≤ d.startingSector) && decide (d.startingSector ≤ h.maxSectors))) := by
  match e, he with
  | [f, s0, s1, l0, l1, l2, n0, n1, n2, n3, n4, n5, n6, n7, e0, e1, e2, x0, x1, x2, x3, x4, x5], _ =>
    refine ⟨_, rfl, rfl, ?_, ?_⟩
    · unfold SDirent.info sInfo statusBit
      simp only [testBit_status]
      congr 1
      unfold int8 le16 wordAt
      simp only [List.getD_cons_zero, List.getD_cons_succ]
      split <;> omega
    · simp only [SDirent.sanityCheck]
      cases f.toNat.testBit 3
      · rfl
      · simp only [Bool.not_true, Bool.false_eq_true, if_false, Bool.false_or]
        rw [Bool.eq_iff_iff, AHeader.sectorIsValid_iff g, Bool.and_eq_true, decide_eq_true_iff, decide_eq_true_iff]

/-- a locked subdirectory with trailing blanks and NULs in its name -/
example : sInfo ([0x29, 6, 1, 5, 0, 0x80, 0x41, 0x20, 0x42, 0x20, 0x20, 0, 0, 0, 0x58, 0x59, 0x5a] ++ List.replicate 6 0) =
    ⟨[0x41, 0x20, 0x42], [], -8388603, 262, true, true, false, true, false, [0, 0, 0, 0, 0, 0]⟩ := by decide

/-- **C78, incomplete records.** Nothing at all gives `IndexError`, a part of a record `ValueError`. -/
theorem C78_record_short (h : AHeader) (num : Nat) {e : Bytes} (he : e.length < 23) :
    SDirent.parse h num e = .error (if e = [] then .indexError else .valueError) := by
  unfold SDirent.parse
  split
  · rfl
  · simp only [List.length_cons, List.length_nil] at he
    omega
  · rename_i h1 _
    rw [if_neg h1]

theorem sparta_slice_length {s : Bytes} {i : Nat} : (slice s (23 * i) (23 * i + 23)).length = min 23 (s.length - 23 * i) := by
  rw [length_slice]; omega

/-- all records there -/
theorem spartaEntries_full {h : AHeader} {n : Nat} (g : h.Geom n) (s : Bytes) : ∀ (k num : Nat), k = 0 ∨ 23 * (num + k) + 23 ≤ s.length →
    ∃ ds, spartaEntries h s num k = .ok ds ∧ ds.map (·.fileNum) = List.range' (num + 1) k ∧
      ds.map SDirent.info = (List.range' (num + 1) k).map fun i => sInfo (slice s (23 * i) (23 * i + 23)) := by
  intro k
  induction k with
  | zero => intro num _; exact ⟨[], rfl, rfl, rfl⟩
  | succ k ih =>
    intro num hk
    obtain ⟨d, e1, e2, e3, -⟩ := C78_record g (num + 1) (e := slice s (23 * (num + 1)) (23 * (num + 1) + 23)) (by
      rw [sparta_slice_length]; omega)
    obtain ⟨ds, f1, f2, f3⟩ := ih (num + 1) (by omega)
    refine ⟨d :: ds, ?_, ?_, ?_⟩
    · rw [spartaEntries, e1]; simp only; rw [f1]
    · rw [List.map_cons, f2, e2, List.range'_succ]
    · rw [List.map_cons, f3, e3, List.range'_succ, List.map_cons]

/-- a record cut off or missing -/
theorem spartaEntries_short {h : AHeader} {n : Nat} (g : h.Geom n) (s : Bytes) : ∀ (k num : Nat), 0 < k → s.length < 23 * (num + k) + 23 →
    spartaEntries h s num k = .error .indexError ∨ spartaEntries h s num k = .error .valueError := by
  intro k
  induction k with
  | zero => intro num hk; omega
  | succ k ih =>
    intro num _ hk
    rw [spartaEntries]
    by_cases hf : 23 * (num + 1) + 23 ≤ s.length
    · obtain ⟨d, e1, -⟩ := C78_record g (num + 1) (e := slice s (23 * (num + 1)) (23 * (num + 1) + 23)) (by
        rw [sparta_slice_length]; omega)
      rw [e1]; simp only
      rcases ih (num + 1) (by omega) (by omega) with e | e <;> rw [e] <;> simp
    · rw [C78_record_short h (num + 1) (by rw [sparta_slice_length]; omega)]
      simp only
      split <;> simp

/-- what happens after the map of the root directory is read -/
theorem spartaDirectory_start {h : AHeader} {b : Bytes} (g : h.Geom b.length) {root t : Nat} {M : List Nat} (hM : MapOf h b root (t :: M))
    (ht : t ≠ 0) : (h.maxSectors < t ∧ spartaDirectory h b root = .error .byteNotInFile) ∨
      ((sectorBytes h b t).length < 23 ∧ spartaDirectory h b root = .error .valueError) ∨
      (t ≤ h.maxSectors ∧ 23 ≤ (sectorBytes h b t).length ∧ ∃ d : SDirent, d.isSane = true ∧ d.startingSector = root ∧
        d.length = (sInfo (slice (sectorBytes h b t) 0 23)).length ∧ spartaDirectory h b root = match d.getFile h b with
          | .error e => .error e
          | .ok s => spartaEntries h s 0 ((d.length.toNat + 22) / 23 - 1)) := by
  have hroot : 1 ≤ root ∧ root ≤ h.maxSectors := by
    generalize he : t :: M = L at hM
    cases hM with
    | nil => cases he
    | cons hs _ => exact ⟨hs.1, hs.2.1⟩
  have hmap := (spartaMap_ok_iff g root _).mpr ⟨by omega, hM⟩
  have hdir : spartaDirectory h b root = match h.getRawBytes b t with
      | .error e => .error e
      | .ok (raw, _, _) =>
        match SDirent.parse h 0 (slice raw 0 23) with
        | .error e => .error e
        | .ok d =>
          match SDirent.getFile { d with startingSector := root, isSane := ({ d with startingSector := root } : SDirent).sanityCheck h } h b with
          | .error e => .error e
          | .ok s => spartaEntries h s 0 ((d.length.toNat + 22) / 23 - 1) := by
    unfold spartaDirectory
    rw [hmap]; simp only
    rw [if_neg ht]
    rfl
  by_cases hv : 1 ≤ t ∧ t ≤ h.maxSectors
  · right
    obtain ⟨p, k, hp⟩ := AHeader.getPos_isOk g hv.1 hv.2
    have hsec := sectorBytes_eq (b := b) hp
    have hraw : h.getRawBytes b t = .ok (sectorBytes h b t, p, k) := by
      unfold AHeader.getRawBytes
      rw [hp, hsec]
    rw [hraw] at hdir; simp only at hdir
    by_cases h23 : (sectorBytes h b t).length < 23
    · left
      refine ⟨h23, ?_⟩
      have hne := sectorBytes_pos g hv.1 hv.2
      rw [C78_record_short h 0 (by rw [length_slice]; omega), if_neg] at hdir
      · exact hdir
      · intro hh
        have := congrArg List.length hh
        rw [length_slice] at this
        cases hc : sectorBytes h b t with
        | nil => exact hne hc
        | cons _ _ => rw [hc] at this; simp at this
    · right
      refine ⟨hv.2, by omega, ?_⟩
      obtain ⟨d, e1, -, e3, -⟩ := C78_record g 0 (e := slice (sectorBytes h b t) 0 23) (by rw [length_slice]; omega)
      rw [e1] at hdir; simp only at hdir
      refine ⟨_, ?_, ?_, ?_, hdir⟩
      · unfold SDirent.sanityCheck
        simp only
        split
        · rfl
        · exact (AHeader.sectorIsValid_iff g root).mpr hroot
      · rfl
      · rw [← e3]; rfl
  · left
    refine ⟨by omega, ?_⟩
    unfold AHeader.getRawBytes at hdir
    rw [getPos_error g hv] at hdir
    exact hdir

theorem spartaEntries_nums {h : AHeader} {s : Bytes} : ∀ (k num : Nat) {ds}, spartaEntries h s num k = .ok ds → ds.map (·.fileNum) = List.range' (num + 1) k := by
  intro k
  induction k with
  | zero => intro num ds hd; cases hd; rfl
  | succ k ih =>
    intro num ds hd
    rw [spartaEntries] at hd
    split at hd
    · cases hd
    rename_i d hp
    split at hd
    · cases hd
    rename_i ds' hr
    cases hd
    rw [List.map_cons, ih _ hr, List.range'_succ]
    congr 1
    unfold SDirent.parse at hp
    split at hp
    · cases hp
    · cases hp; rfl
    · cases hp

theorem spartaDirectory_nums {h : AHeader} {b : Bytes} {root : Nat} {ds} (hd : spartaDirectory h b root = .ok ds) :
    ds.map (·.fileNum) = List.range' 1 ds.length := by
  have key : ∀ s k, spartaEntries h s 0 k = .ok ds → ds.map (·.fileNum) = List.range' 1 ds.length := by
    intro s k he
    have h1 := spartaEntries_nums k 0 he
    have := congrArg List.length h1
    rw [List.length_map, List.length_range'] at this
    rw [h1, this]
  unfold spartaDirectory at hd
  split at hd
  · cases hd
  · cases hd
  · split at hd
    · cases hd; rfl
    split at hd
    · cases hd
    split at hd
    · cases hd
    simp only at hd
    split at hd
    · cases hd
    exact key _ _ hd

theorem spartaEntries_sane {h : AHeader} {n : Nat} (g : h.Geom n) {s : Bytes} : ∀ (k num : Nat) {ds}, spartaEntries h s num k = .ok ds →
    ∀ d ∈ ds, d.isSane = (!d.inUse || (decide (1 ≤ d.startingSector) && decide (d.startingSector ≤ h.maxSectors))) := by
  intro k
  induction k with
  | zero => intro num ds hd; cases hd; simp
  | succ k ih =>
    intro num ds hd
    rw [spartaEntries] at hd
    split at hd
    · cases hd
    rename_i d hp
    split at hd
    · cases hd
    rename_i ds' hr
    cases hd
    intro x hx
    rcases List.mem_cons.mp hx with rfl | hx
    · have hlen : (slice s (23 * (num + 1)) (23 * (num + 1) + 23)).length = 23 := by
        unfold SDirent.parse at hp
        split at hp
        · cases hp
        · rename_i he; rw [he]; rfl
        · cases hp
      obtain ⟨d', e1, -, -, e4⟩ := C78_record g (num + 1) hlen
      rw [e1] at hp
      cases hp
      exact e4
    · exact ih _ hr x hx

/-- **C78, refused entries.** Every entry of a disk is good unless it is in use and its map is not on the disk. -/
theorem C78_sane {b : Bytes} {m : SImg} (hm : SImg.open b = .ok m) : ∀ d ∈ m.files,
    d.isSane = (!d.inUse || (decide (1 ≤ d.startingSector) && decide (d.startingSector ≤ m.hdr.maxSectors))) := by
  unfold SImg.open at hm
  split at hm
  · cases hm
  rename_i h ho
  have g := openHeader_geom ho
  split at hm
  · cases hm
  split at hm
  · cases hm
  rename_i ds hd
  cases hm
  simp only
  unfold spartaDirectory at hd
  split at hd
  · cases hd
  · cases hd
  · split at hd
    · cases hd; simp
    split at hd
    · cases hd
    split at hd
    · cases hd
    simp only at hd
    split at hd
    · cases hd
    exact spartaEntries_sane g _ _ hd

theorem records_take {c : Bytes} {k n : Nat} (hk : 23 * (k + 1) ≤ n) : ((List.range' 1 k).map fun i => sInfo (slice (c.take n) (23 * i) (23 * i + 23))) =
    (List.range' 1 k).map fun i => sInfo (slice c (23 * i) (23 * i + 23)) := by
  apply List.map_congr_left
  intro i hi
  rw [List.mem_range'_1] at hi
  congr 1
  unfold slice
  rw [List.take_take, Nat.min_eq_left (by omega)]

/-- the files of a directory, for any image the header fits to -/
theorem spartaDirectory_iff {h : AHeader} {b : Bytes} (g : h.Geom b.length) (root : Nat) (L : List SInfo) :
    (∃ ds, spartaDirectory h b root = .ok ds ∧ ds.map (·.fileNum) = List.range' 1 ds.length ∧ ds.map SDirent.info = L) ↔ SpartaListing h b root L := by
  constructor
  · rintro ⟨ds, hd, -, rfl⟩
    cases hm : spartaMap h b root with
    | error e => unfold spartaDirectory at hd; rw [hm] at hd; cases hd
    | ok M =>
      obtain ⟨hr, hM⟩ := (spartaMap_ok_iff g root M).mp hm
      refine ⟨M, hM, ?_⟩
      cases M with
      | nil => unfold spartaDirectory at hd; rw [hm] at hd; cases hd
      | cons t M =>
        by_cases ht : t = 0
        · left
          subst ht
          unfold spartaDirectory at hd
          rw [hm] at hd
          cases hd
          exact ⟨M, rfl, rfl⟩
        right
        rcases spartaDirectory_start g hM ht with ⟨-, e⟩ | ⟨-, e⟩ | ⟨htm, h23, d, s1, s2, s3, e⟩
        · rw [e] at hd; cases hd
        · rw [e] at hd; cases hd
        rw [e] at hd
        rcases map_cases h.maxSectors (t :: M) with ⟨P, R, eM, hP⟩ | hall | ⟨P, u, R, eM, hP, hu⟩
        · cases P with
          | nil => cases eM; exact absurd rfl ht
          | cons t' P =>
            cases eM
            refine ⟨t, P, R, rfl, hP, h23, ?_⟩
            rw [getFile_terminated g s1 (s2 ▸ hM) hP] at hd
            simp only at hd
            rw [s3] at hd
            have hc23 : 23 ≤ ((t :: P).flatMap (sectorBytes h b)).length := by rw [List.flatMap_cons, List.length_append]; omega
            generalize (sInfo (slice (sectorBytes h b t) 0 23)).length = n at hd ⊢
            generalize (t :: P).flatMap (sectorBytes h b) = c at hd hc23 ⊢
            by_cases hn : n ≤ 23
            · left
              refine ⟨hn, ?_⟩
              rw [show (n.toNat + 22) / 23 - 1 = 0 by omega] at hd
              cases hd; rfl
            · right
              obtain ⟨k, hk⟩ : ∃ k, (n.toNat + 22) / 23 - 1 = k := ⟨_, rfl⟩
              rw [hk] at hd
              by_cases hnil : c.take n.toNat = []
              · exfalso
                have hc : c = [] := by
                  rcases List.take_eq_nil_iff.mp hnil with h0 | h0
                  · omega
                  · exact h0
                rw [hc] at hc23; simp at hc23
              rw [if_neg hnil] at hd
              by_cases hfit : 23 * (0 + k) + 23 ≤ (c.take n.toNat).length
              · obtain ⟨ds', f1, -, f3⟩ := spartaEntries_full g (c.take n.toNat) k 0 (.inr hfit)
                rw [f1] at hd
                cases hd
                rw [List.length_take] at hfit
                refine ⟨by omega, by omega, by omega, ?_⟩
                rw [f3, records_take (by omega), show n.toNat / 23 - 1 = k by omega]
              · rcases spartaEntries_short g (c.take n.toNat) k 0 (by omega) (by omega) with e | e <;> rw [e] at hd <;> cases hd
        · rw [getFile_map g s1 (s2 ▸ hM) (by rw [s2]; exact hr), spartaRead_no_terminator g _ _ hall] at hd
          cases hd
        · rw [eM] at hM
          rw [getFile_map g s1 (s2 ▸ hM) (by rw [s2]; exact hr), spartaRead_bad g _ _ _ _ hP hu] at hd
          cases hd
  · rintro ⟨M, hM, hc⟩
    rcases hc with ⟨R, rfl, rfl⟩ | ⟨t, P, R, rfl, hP, h23, hc⟩
    · refine ⟨[], ?_, rfl, rfl⟩
      unfold spartaDirectory
      rw [(spartaMap_ok_iff g root _).mpr ⟨hM.start_ne (by simp), hM⟩]
      rfl
    · have ht := hP t (by simp)
      rcases spartaDirectory_start g hM (by omega) with ⟨e, -⟩ | ⟨e, -⟩ | ⟨-, -, d, s1, s2, s3, e⟩
      · omega
      · omega
      rw [e, getFile_terminated g s1 (P := t :: P) (R := R) (s2 ▸ hM) hP]
      simp only
      rw [s3]
      generalize (sInfo (slice (sectorBytes h b t) 0 23)).length = n at hc ⊢
      generalize (t :: P).flatMap (sectorBytes h b) = c at hc ⊢
      rcases hc with ⟨hn, rfl⟩ | ⟨hn, h0, hl, rfl⟩
      · rw [show (n.toNat + 22) / 23 - 1 = 0 by omega]
        exact ⟨[], rfl, rfl, rfl⟩
      · rw [if_neg (by
          intro hh
          have := congrArg List.length hh
          rw [List.length_take, List.length_nil] at this
          omega)]
        obtain ⟨ds', f1, f2, f3⟩ := spartaEntries_full g (c.take n.toNat) ((n.toNat + 22) / 23 - 1) 0 (.inr (by rw [List.length_take]; omega))
        refine ⟨ds', f1, ?_, ?_⟩
        · rw [f2]
          have := congrArg List.length f2
          rw [List.length_map, List.length_range'] at this
          rw [this]
        · rw [f3, show n.toNat / 23 - 1 = (n.toNat + 22) / 23 - 1 by omega]
          exact records_take (by omega)

/-- **C78, the directory.** The files of a SpartaDOS directory are exactly the records after the first one, whatever they say: those of deleted files and
of subdirectories as well.  The directory is refused unless its map is complete and ended by a zero, its length a whole number of records, and all of
them there.  (If the map begins with a zero, or the length is at most that of one record, there are no files.) -/
theorem C78_directory {h : AHeader} {b : Bytes} (ho : openHeader b = .ok h) (root : Nat) (L : List SInfo) :
    (∃ ds, spartaDirectory h b root = .ok ds ∧ ds.map (·.fileNum) = List.range' 1 ds.length ∧ ds.map SDirent.info = L) ↔ SpartaListing h b root L :=
  spartaDirectory_iff (openHeader_geom ho) root L

/-- **C78, the disk.** A file (with sectors of at least 33 bytes) opens as a SpartaDOS disk and lists `L` exactly if its boot record is one and its root
directory lists `L`. -/
theorem C78_opens {h : AHeader} {b : Bytes} (ho : openHeader b = .ok h) (hs : 33 ≤ h.sectorSize) (L : List SInfo) :
    (∃ m, SImg.open b = .ok m ∧ m.bytes = b ∧ m.files.map SDirent.info = L) ↔ SpartaLike h b ∧ SpartaListing h b (bootWord h b 9) L := by
  have g := openHeader_geom ho
  constructor
  · rintro ⟨m, hm, -, rfl⟩
    unfold SImg.open at hm
    rw [ho] at hm; simp only at hm
    have hmax : 1 ≤ h.maxSectors := by
      rcases Nat.lt_or_ge h.maxSectors 1 with hlt | hge
      · exfalso
        unfold spartaBoot at hm
        rw [getSectors_one_eq, getPos_error g (by omega)] at hm
        cases hm
      · exact hge
    rw [spartaBoot_eq g hs hmax] at hm
    by_cases hl : SpartaLike h b
    · rw [if_pos hl] at hm; simp only at hm
      refine ⟨hl, ?_⟩
      cases hd : spartaDirectory h b (bootWord h b 9) with
      | error e => rw [hd] at hm; cases hm
      | ok ds =>
        rw [hd] at hm
        cases hm
        obtain ⟨R, hR⟩ : ∃ R, ds.map SDirent.info = R := ⟨_, rfl⟩
        refine (C78_directory ho _ _).mp ⟨ds, hd, ?_, rfl⟩
        exact spartaDirectory_nums hd
    · rw [if_neg hl] at hm; cases hm
  · rintro ⟨hl, hL⟩
    have hmax : 1 ≤ h.maxSectors := by
      obtain ⟨M, hM, hc⟩ := hL
      have hne : M ≠ [] := by rcases hc with ⟨R, rfl, -⟩ | ⟨t, P, R, rfl, -⟩ <;> simp
      generalize bootWord h b 9 = r at hM
      cases hM with
      | nil => exact absurd rfl hne
      | cons hs _ => exact Nat.le_trans hs.1 hs.2.1
    obtain ⟨ds, hd, -, rfl⟩ := (C78_directory ho _ _).mpr hL
    refine ⟨{ hdr := h, bytes := b, rootDir := bootWord h b 9, files := ds }, ?_, rfl, rfl⟩
    unfold SImg.open
    rw [ho]; simp only
    rw [spartaBoot_eq g hs hmax, if_pos hl]; simp only
    rw [hd]

theorem SDirent.filename_eq (d : SDirent) : d.filename = d.info.fullName := by
  unfold SDirent.filename SInfo.fullName SDirent.info
  simp only
  split <;> simp

theorem mapLoop_not_missing {h : AHeader} {b : Bytes} : ∀ fuel s, mapLoop h b fuel s ≠ .error .fileNotFound := by
  intro fuel
  induction fuel with
  | zero => intro s hh; cases hh
  | succ fuel ih =>
    intro s hh
    rw [mapLoop] at hh
    split at hh
    · cases hh
    split at hh
    · rename_i e he
      rw [getSectors_one_eq] at he
      split at he
      · rename_i e' hp
        cases he; cases hh
        unfold AHeader.getPos at hp
        split at hp
        · cases hp
        · split at hp <;> cases hp
      · cases he
    · split at hh
      · split at hh
        · cases hh
        · split at hh
          · rename_i e he
            cases hh
            exact ih _ he
          · cases hh
      · cases hh

theorem spartaRead_not_missing {h : AHeader} {b : Bytes} : ∀ M rem, spartaRead h b M rem ≠ .error .fileNotFound := by
  intro M
  induction M with
  | nil => intro rem hh; cases hh
  | cons s M ih =>
    intro rem hh
    rw [spartaRead] at hh
    split at hh
    · cases hh
    split at hh
    · rename_i e he
      cases hh
      unfold AHeader.getRawBytes at he
      split at he
      · rename_i e' hp
        cases he
        unfold AHeader.getPos at hp
        split at hp
        · cases hp
        · split at hp <;> cases hp
      · cases he
    · simp only at hh
      split at hh
      · rename_i e he
        cases hh
        exact ih _ he
      · cases hh

/-- reading an entry never says that there is no such file -/
theorem SDirent.getFile_not_missing (d : SDirent) (h : AHeader) (b : Bytes) : d.getFile h b ≠ .error .fileNotFound := by
  intro hh
  unfold SDirent.getFile at hh
  split at hh
  · cases hh
  split at hh
  · rename_i e he
    cases hh
    unfold spartaMap at he
    split at he
    · cases he
    · exact mapLoop_not_missing _ _ he
  · split at hh
    · rename_i e he
      cases hh
      exact spartaRead_not_missing _ _ he
    · split at hh
      · cases hh
      · unfold gather at hh
        split at hh <;> cases hh

/-- **C78, looking up a file.** A name is found exactly if some record that is listed has it, deleted ones and subdirectories included; the first one with
that name is read.  An entry that is in use but whose map is not on the disk is refused. -/
theorem C78_find (m : SImg) (name : Bytes) :
    (m.findFile name = .error .fileNotFound ↔ ∀ i ∈ m.files.map SDirent.info, i.fullName ≠ name) ∧
    (∀ A d C, m.files = A ++ d :: C → d.info.fullName = name → (∀ x ∈ A, x.info.fullName ≠ name) →
      m.findFile name = if d.isSane then d.getFile m.hdr m.bytes else .error .invalidDirent) := by
  constructor
  · unfold SImg.findFile
    split
    · rename_i hf
      rw [List.find?_eq_none] at hf
      refine ⟨fun _ i hi => ?_, fun _ => rfl⟩
      obtain ⟨d, hd, rfl⟩ := List.mem_map.mp hi
      have := hf d hd
      rw [← SDirent.filename_eq]
      simpa using this
    · rename_i d hf
      refine ⟨fun hh => absurd hh (SDirent.getFile_not_missing _ _ _), fun hall => ?_⟩
      have h1 := List.mem_of_find?_eq_some hf
      have h2 := List.find?_some hf
      rw [SDirent.filename_eq] at h2
      exact absurd (by simpa using h2) (hall d.info (List.mem_map.mpr ⟨d, h1, rfl⟩))
  · intro A d C hA hd hne
    have hf : m.files.find? (fun d => d.filename == name) = some d := by
      rw [hA, List.find?_append, List.find?_eq_none.mpr]
      · rw [List.find?_cons_of_pos]
        · rfl
        · rw [SDirent.filename_eq, hd]; simp
      · intro x hx
        have := hne x hx
        rw [SDirent.filename_eq]
        simpa using this
    unfold SImg.findFile
    rw [hf]; simp only
    cases hsane : d.isSane with
    | true => rfl
    | false =>
      unfold SDirent.getFile
      rw [hsane]; rfl

/-- sectors (counted from 0) of the disk of `spartaSec` with another directory: a deleted `A.X`, a subdirectory `S` whose extension is ignored, and `A.X` -/
def spartaSec2 (s : Nat) : Bytes :=
  if s = 4 then sec128 (
    [0x28, 0, 0, 92, 0, 0] ++ List.replicate 11 0x4d ++ List.replicate 6 0 ++
    [0x10, 9, 0, 3, 0, 0, 0x41] ++ List.replicate 7 0x20 ++ [0x58, 0x20, 0x20] ++ List.replicate 6 0 ++
    [0x28, 8, 0, 0, 31, 0xff, 0x53] ++ List.replicate 7 0x20 ++ [0x58, 0x20, 0x20] ++ List.replicate 6 0 ++
    [0x89, 6, 0, 5, 0, 0, 0x41] ++ List.replicate 7 0x20 ++ [0x58, 0x20, 0x20] ++ List.replicate 6 0)
  else spartaSec s

theorem spartaSec2_length (s : Nat) : (spartaSec2 s).length = 128 := by
  unfold spartaSec2
  split
  · decide +kernel
  · exact spartaSec_length s

/-- the records of that disk -/
def spartaInfos2 : List SInfo :=
  [ ⟨[0x41], [0x58], 3, 9, false, false, true, false, false, [0, 0, 0, 0, 0, 0]⟩,
    ⟨[0x53], [], 7936 - 65536, 8, false, true, false, true, false, [0, 0, 0, 0, 0, 0]⟩,
    ⟨[0x41], [0x58], 5, 6, true, true, false, false, true, [0, 0, 0, 0, 0, 0]⟩ ]

/-- a disk with a deleted file, a subdirectory and a file of the same name as the deleted one: all three are listed, and the name gives the contents of the
deleted one -/
theorem sparta_deleted_listed : ∃ m : SImg, SImg.open m.bytes = .ok m ∧ m.files.map SDirent.info = spartaInfos2 ∧
    m.findFile [0x41, 0x2e, 0x58] = .ok [1, 2, 3] ∧ m.findFile [0x41] = .error .fileNotFound := by
  obtain ⟨b, hb⟩ : ∃ b, b = (List.range 720).flatMap spartaSec2 := ⟨_, rfl⟩
  have hl : b.length = 92160 := by
    rw [hb, flatMap128_length spartaSec2_length, List.length_range]
  have hs : ∀ s, 1 ≤ s → s ≤ 720 → sectorBytes xfdHeader b s = spartaSec2 (s - 1) := fun s h1 h2 => by
    rw [xfd_sectorBytes h1 h2, hb]; exact flatMap128_slice spartaSec2_length (by omega)
  have h0 : slice b 0 128 = spartaSec2 0 := by rw [hb]; exact flatMap128_slice (s := 0) spartaSec2_length (by omega)
  clear hb
  have ho : openHeader b = .ok xfdHeader := by
    refine openHeader_xfd hl ?_
    have : slice b 0 16 = slice (slice b 0 128) 0 16 := by rw [slice_slice]; rfl
    rw [this, h0]; decide +kernel
  have g := openHeader_geom ho
  have hM : MapOf xfdHeader b 4 ([5] ++ 0 :: List.replicate 60 0) :=
    mapOf_one (by decide) (hs 4 (by omega) (by omega)) (by decide +kernel) (by decide +kernel)
  have hbyte : ∀ i, i < 128 → bootByte xfdHeader b i = ((spartaSec2 0).getD i 0).toNat := by
    intro i hi
    rw [← h0]
    unfold bootByte
    rw [getD_slice (by omega)]
    rfl
  have hlike : SpartaLike xfdHeader b := by
    unfold SpartaLike bootWord
    rw [hbyte 11 (by omega), hbyte (11 + 1) (by omega), hbyte 18 (by omega), hbyte (18 + 1) (by omega), hbyte 16 (by omega), hbyte (16 + 1) (by omega),
      hbyte 9 (by omega), hbyte (9 + 1) (by omega), hbyte 32 (by omega), hbyte 31 (by omega)]
    decide +kernel
  have h9 : bootWord xfdHeader b 9 = 4 := by
    unfold bootWord
    rw [hbyte 9 (by omega), hbyte (9 + 1) (by omega)]
    decide +kernel
  have hlist : SpartaListing xfdHeader b (bootWord xfdHeader b 9) spartaInfos2 := by
    rw [h9]
    refine ⟨_, hM, .inr ⟨5, [], _, rfl, by decide, ?_, ?_⟩⟩
    · rw [hs 5 (by omega) (by omega)]; decide +kernel
    · simp only
      rw [List.flatMap_cons, List.flatMap_nil, List.append_nil, hs 5 (by omega) (by omega)]
      decide +kernel
  obtain ⟨m, hm, hmb, hi⟩ := (C78_opens ho (by decide) _).mpr ⟨hlike, hlist⟩
  have hmh : m.hdr = xfdHeader := by
    unfold SImg.open at hm
    rw [ho] at hm; simp only at hm
    split at hm
    · cases hm
    · split at hm
      · cases hm
      · cases hm; rfl
  refine ⟨m, by rw [hmb]; exact hm, hi, ?_, ?_⟩
  · obtain ⟨d, C, hf⟩ : ∃ d C, m.files = d :: C := by
      cases hc : m.files with
      | nil => rw [hc] at hi; cases hi
      | cons d C => exact ⟨d, C, rfl⟩
    rw [hf, List.map_cons] at hi
    have hd : d.info = ⟨[0x41], [0x58], 3, 9, false, false, true, false, false, [0, 0, 0, 0, 0, 0]⟩ := (List.cons.inj hi).1
    rw [(C78_find m _).2 [] d C hf (by rw [hd]; rfl) (by simp), hmh, hmb]
    have hsane := C78_sane hm d (by rw [hf]; simp)
    have hu : d.inUse = false := congrArg SInfo.inUse hd
    rw [hu] at hsane
    rw [hsane]
    have hst : d.startingSector = 9 := congrArg SInfo.start hd
    have hM9 : MapOf xfdHeader b d.startingSector ([7] ++ 0 :: 7 :: List.replicate 59 0) := by
      rw [hst]
      exact mapOf_one (by decide) (hs 9 (by omega) (by omega)) (by decide +kernel) (by decide +kernel)
    have hlen : d.length = 3 := congrArg SInfo.length hd
    have := C42_read_partial ho hsane hM9 (by decide) (by simp) (by rw [hlen]; decide)
    rw [hlen, List.flatMap_cons, List.flatMap_nil, List.append_nil, hs 7 (by omega) (by omega)] at this
    exact this
  · rw [(C78_find m _).1, hi]
    decide

end Atr
