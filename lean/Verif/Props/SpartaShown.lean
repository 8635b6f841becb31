import Verif.Spec.SpartaShown
import Verif.Props.SpartaDir
import Verif.Props.Detect
/-!
# C91: the segments shown for a SpartaDOS disk
-/
namespace Atr

/-! ### one entry -/

theorem MapBreaks.ends {h : AHeader} {b : Bytes} {s : Nat} (hM : MapBreaks h b s) : ∃ k, EndsN (mapNext h b) k s := by
  induction hM with
  | here hs => exact ⟨1, .stop (if_neg fun x => by have := x.2.1; omega)⟩
  | next hs _ ih => obtain ⟨k, e⟩ := ih; exact ⟨k + 1, .step (if_pos hs) e⟩

theorem mapLoop_breaks {h : AHeader} {b : Bytes} {n : Nat} (g : h.Geom n) : ∀ fuel s, mapLoop h b fuel s = .error .byteNotInFile → MapBreaks h b s := by
  intro fuel
  induction fuel with
  | zero => intro s hm; cases hm
  | succ fuel ih =>
    intro s hm
    by_cases h0 : s = 0
    · rw [mapLoop, if_pos h0] at hm; cases hm
    · by_cases hs : MapSector h b s
      · rw [mapLoop_step g fuel hs] at hm
        cases hr : mapLoop h b fuel (wordAt (sectorBytes h b s) 0) with
        | error e => rw [hr] at hm; cases hm; exact .next hs (ih _ hr)
        | ok M' => rw [hr] at hm; cases hm
      · by_cases hv : s ≤ h.maxSectors
        · exfalso
          rw [mapLoop, if_neg h0, getSectors_valid g (by omega) hv] at hm
          have hs : ¬ (4 ≤ (sectorBytes h b s).length ∧ (sectorBytes h b s).length % 2 = 0) := fun x => hs ⟨by omega, hv, x.1, x.2⟩
          generalize sectorBytes h b s = d at hs hm
          match d, hs, hm with
          | n0 :: n1 :: p0 :: p1 :: r, hs, hm =>
            simp only at hm
            rw [if_pos (by simp at hs; omega)] at hm
            cases hm
        · exact .here (by omega)

theorem mapLoop_of_breaks {h : AHeader} {b : Bytes} {n : Nat} (g : h.Geom n) {s : Nat} (hM : MapBreaks h b s) :
    ∀ fuel k, EndsN (mapNext h b) k s → k ≤ fuel → mapLoop h b fuel s = .error .byteNotInFile := by
  induction hM with
  | @here s hs =>
    intro fuel k e hk
    have := e.pos
    obtain ⟨f, rfl⟩ : ∃ f, fuel = f + 1 := ⟨fuel - 1, by omega⟩
    rw [mapLoop, if_neg (by omega), getSectors_one_eq, getPos_error g (by omega)]
  | @next s hs _ ih =>
    intro fuel k e hk
    cases e with
    | stop h2 => rw [show mapNext h b s = some _ from if_pos hs] at h2; cases h2
    | step h2 e =>
      rw [show mapNext h b s = some _ from if_pos hs] at h2; injection h2 with h2; subst h2
      have := e.pos
      obtain ⟨f, rfl⟩ : ∃ f, fuel = f + 1 := ⟨fuel - 1, by omega⟩
      rw [mapLoop_step g f hs, ih f _ e (by omega)]; rfl

theorem MapBreaks.pos {h : AHeader} {b : Bytes} {s : Nat} (hM : MapBreaks h b s) : s ≠ 0 := by
  cases hM with
  | here h => omega
  | next h _ => have := h.1; omega

/-- the map of a file leads off the disk exactly if reading it ends this way -/
theorem spartaMap_breaks_iff {h : AHeader} {b : Bytes} {n : Nat} (g : h.Geom n) (s : Nat) :
    spartaMap h b s = .error .byteNotInFile ↔ MapBreaks h b s := by
  unfold spartaMap
  constructor
  · intro hm
    split at hm
    · cases hm
    · exact mapLoop_breaks g _ _ hm
  · intro hM
    rw [if_neg hM.pos]
    obtain ⟨k, e⟩ := hM.ends
    exact mapLoop_of_breaks g hM _ k e (by have := e.bound mapNext_lt; omega)

theorem mapLoop_errors {h : AHeader} {b : Bytes} {n : Nat} (g : h.Geom n) : ∀ fuel s e, mapLoop h b fuel s = .error e →
    e = .byteNotInFile ∨ e = .valueError ∨ e = .hang := by
  intro fuel
  induction fuel with
  | zero => intro s e hm; cases hm; simp
  | succ fuel ih =>
    intro s e hm
    by_cases h0 : s = 0
    · rw [mapLoop, if_pos h0] at hm; cases hm
    · by_cases hs : MapSector h b s
      · rw [mapLoop_step g fuel hs] at hm
        cases hr : mapLoop h b fuel (wordAt (sectorBytes h b s) 0) with
        | error e => rw [hr] at hm; cases hm; exact ih _ _ hr
        | ok M' => rw [hr] at hm; cases hm
      · rcases mapLoop_stop g fuel h0 hs with h1 | h1 <;> rw [h1] at hm <;> cases hm <;> simp

/-- what comes of reading a map -/
theorem sectors_split (n : Nat) : ∀ M : List Nat, (∃ P R, M = P ++ 0 :: R ∧ ∀ s ∈ P, 1 ≤ s ∧ s ≤ n) ∨ (∃ P s R, M = P ++ s :: R ∧ (∀ s ∈ P, 1 ≤ s ∧ s ≤ n) ∧ n < s) ∨
    ∀ s ∈ M, 1 ≤ s ∧ s ≤ n := by
  intro M
  induction M with
  | nil => right; right; simp
  | cons a M ih =>
    by_cases h0 : a = 0
    · left; exact ⟨[], M, by simp [h0], by simp⟩
    · by_cases hn : n < a
      · right; left; exact ⟨[], a, M, rfl, by simp, hn⟩
      · have ha : ∀ P : List Nat, (∀ s ∈ P, 1 ≤ s ∧ s ≤ n) → ∀ s ∈ a :: P, 1 ≤ s ∧ s ≤ n := by
          intro P hP s hs
          rcases List.mem_cons.mp hs with rfl | hs
          · omega
          · exact hP s hs
        rcases ih with ⟨P, R, rfl, hP⟩ | ⟨P, s, R, rfl, hP, hs⟩ | hM
        · left; exact ⟨a :: P, R, rfl, ha P hP⟩
        · right; left; exact ⟨a :: P, s, R, rfl, ha P hP, hs⟩
        · right; right; exact ha M hM

/-- what is shown for an entry: the match inside `fileSegs` -/
def entrySeg (d : SDirent) (h : AHeader) (b : Bytes) : Except Err ISeg :=
  match d.getFile h b with
  | .ok data => .ok ⟨.file d.filename, data⟩
  | .error e => if e.isInvalidFile then .ok ⟨.fileError d.filename, b⟩ else .error e

theorem MapOf.unique {h : AHeader} {b : Bytes} {s : Nat} {M M' : List Nat} (h1 : MapOf h b s M) (h2 : MapOf h b s M') : M = M' := by
  induction h1 generalizing M' with
  | nil =>
    cases h2 with
    | nil => rfl
    | cons hs _ => have := hs.1; omega
  | cons hs _ ih =>
    cases h2 with
    | nil => have := hs.1; omega
    | cons _ h2 => rw [ih h2]

/-- an entry that is not sane -/
theorem entrySeg_insane {h : AHeader} {b : Bytes} {d : SDirent} (hd : d.isSane = false) : entrySeg d h b = .error .invalidDirent := by
  unfold entrySeg SDirent.getFile; rw [hd]; rfl

theorem entrySeg_zero {h : AHeader} {b : Bytes} {d : SDirent} (hd : d.isSane = true) (h0 : d.startingSector = 0) : entrySeg d h b = .error .typeError := by
  unfold entrySeg SDirent.getFile spartaMap; rw [hd, h0]; rfl

theorem entrySeg_full {h : AHeader} {b : Bytes} (g : h.Geom b.length) {d : SDirent} (hd : d.isSane = true) {M : List Nat}
    (hM : MapOf h b d.startingSector M) (h0 : d.startingSector ≠ 0) (hv : SectorsOf h M) : entrySeg d h b = .error .indexError := by
  unfold entrySeg
  rw [getFile_map g hd hM h0, spartaRead_no_terminator g M _ hv]
  rfl

theorem entrySeg_hang {h : AHeader} {b : Bytes} {d : SDirent} (hd : d.isSane = true) (hh : spartaMap h b d.startingSector = .error .hang) :
    entrySeg d h b = .error .hang := by
  unfold entrySeg SDirent.getFile; rw [hd, hh]; rfl

theorem shown_iff {h : AHeader} {b : Bytes} (g : h.Geom b.length) {d : SDirent} (hd : d.isSane = true) (s : ISeg) :
    entrySeg d h b = .ok s ↔ SpartaShown h b d.info s := by
  have hst : d.info.start = d.startingSector := rfl
  have hln : d.info.length = d.length := rfl
  have fwd : ∀ s, SpartaShown h b d.info s → entrySeg d h b = .ok s := by
    intro s hs
    unfold entrySeg
    cases hs with
    | @file P R hM hP hne hl =>
      rw [getFile_terminated g hd hM hP, if_neg]
      · simp only
        rw [SDirent.filename_eq]
        rfl
      · obtain ⟨t, P, rfl⟩ := List.exists_cons_of_ne_nil hne
        have h1 := hP t (by simp)
        have := sectorBytes_pos (b := b) g h1.1 h1.2
        intro hh
        rw [List.take_eq_nil_iff] at hh
        rcases hh with hh | hh
        · rw [hln] at hl; omega
        · rw [List.flatMap_cons, List.append_eq_nil_iff] at hh; exact this hh.1
    | @empty P R hM hP he =>
      rw [getFile_terminated g hd hM hP, if_pos]
      · simp only
        rw [SDirent.filename_eq]
      · rcases he with rfl | he
        · simp
        · rw [hln] at he
          rw [show d.length.toNat = 0 by omega]; simp
    | noMap hM =>
      have := (spartaMap_breaks_iff g _).mpr hM
      unfold SDirent.getFile
      rw [hd]
      simp only [Bool.not_true, Bool.false_eq_true, if_false]
      rw [hst] at this
      rw [this]
      simp only
      rw [if_pos (show Err.isInvalidFile .byteNotInFile = true from rfl), SDirent.filename_eq]
    | @noSector P R t hM hP ht =>
      rw [getFile_map g hd hM (hM.start_ne (by simp)), spartaRead_bad g P R t _ hP ht]
      simp only
      rw [if_pos (show Err.isInvalidFile .byteNotInFile = true from rfl), SDirent.filename_eq]
  refine ⟨fun he => ?_, fwd s⟩
  by_cases h0 : d.startingSector = 0
  · rw [entrySeg_zero hd h0] at he; cases he
  cases hm : spartaMap h b d.startingSector with
  | error e =>
    have hr : d.getFile h b = .error e := by unfold SDirent.getFile; rw [hd, hm]; rfl
    have he' : e = .byteNotInFile ∨ e = .valueError ∨ e = .hang := by
      unfold spartaMap at hm
      rw [if_neg h0] at hm
      exact mapLoop_errors g _ _ _ hm
    rcases he' with rfl | rfl | rfl
    · have hs := SpartaShown.noMap (i := d.info) ((spartaMap_breaks_iff g _).mp hm)
      have := fwd _ hs
      rw [this] at he
      cases he
      exact hs
    · unfold entrySeg at he; rw [hr] at he; cases he
    · unfold entrySeg at he; rw [hr] at he; cases he
  | ok M =>
    obtain ⟨_, hM⟩ := (spartaMap_ok_iff g _ _).mp hm
    have fin : ∀ s', SpartaShown h b d.info s' → SpartaShown h b d.info s := by
      intro s' hs
      have := fwd _ hs
      rw [this] at he
      cases he
      exact hs
    rcases sectors_split h.maxSectors M with ⟨P, R, rfl, hP⟩ | ⟨P, t, R, rfl, hP, ht⟩ | hv
    · by_cases hl : P ≠ [] ∧ 0 < d.length
      · exact fin _ (.file hM hP hl.1 hl.2)
      · refine fin _ (.empty hM hP ?_)
        by_cases hP0 : P = []
        · exact Or.inl hP0
        · right; rw [hln]; have : ¬ 0 < d.length := fun x => hl ⟨hP0, x⟩
          omega
    · exact fin _ (.noSector hM hP ht)
    · rw [entrySeg_full g hd hM h0 hv] at he; cases he

/-! ### all entries -/

theorem fileSegs_cons_entry (h : AHeader) (b : Bytes) (d : SDirent) (ds : List SDirent) :
    fileSegs SDirent.filename (fun d => d.getFile h b) b (d :: ds) =
      match entrySeg d h b with
      | .error e => .error e
      | .ok s =>
        match fileSegs SDirent.filename (fun d => d.getFile h b) b ds with
        | .error e => .error e
        | .ok ss => .ok (s :: ss) := rfl

/-- what is shown for each entry, in order -/
inductive AllShown (h : AHeader) (b : Bytes) : List SInfo → List ISeg → Prop
  | nil : AllShown h b [] []
  | cons {i : SInfo} {l : List SInfo} {s : ISeg} {ss : List ISeg} : i.Sane h → SpartaShown h b i s → AllShown h b l ss →
      AllShown h b (i :: l) (s :: ss)

theorem sane_iff {h : AHeader} {d : SDirent}
    (hd : d.isSane = (!d.inUse || (decide (1 ≤ d.startingSector) && decide (d.startingSector ≤ h.maxSectors)))) : d.isSane = true ↔ d.info.Sane h := by
  rw [hd]
  unfold SInfo.Sane
  show _ ↔ (d.inUse = true → 1 ≤ d.startingSector ∧ d.startingSector ≤ h.maxSectors)
  cases d.inUse <;> simp

theorem entries_iff {h : AHeader} {b : Bytes} (g : h.Geom b.length) : ∀ (ds : List SDirent) (ss : List ISeg),
    (∀ d ∈ ds, d.isSane = (!d.inUse || (decide (1 ≤ d.startingSector) && decide (d.startingSector ≤ h.maxSectors)))) →
    (fileSegs SDirent.filename (fun d => d.getFile h b) b ds = .ok ss ↔ AllShown h b (ds.map SDirent.info) ss) := by
  intro ds
  induction ds with
  | nil =>
    intro ss _
    constructor
    · intro he; cases he; exact .nil
    · intro he; cases he; rfl
  | cons d ds ih =>
    intro ss hd
    have hs := sane_iff (hd d (by simp))
    rw [fileSegs_cons_entry, List.map_cons]
    have ih' := fun ss => ih ss (fun x hx => hd x (by simp [hx]))
    constructor
    · intro he
      by_cases hsane : d.isSane = true
      · cases h1 : entrySeg d h b with
        | error e => rw [h1] at he; cases he
        | ok s =>
          rw [h1] at he
          simp only at he
          cases h2 : fileSegs SDirent.filename (fun d => d.getFile h b) b ds with
          | error e => rw [h2] at he; cases he
          | ok ss' =>
            rw [h2] at he
            cases he
            exact .cons (hs.mp hsane) ((shown_iff g hsane s).mp h1) ((ih' ss').mp h2)
      · rw [entrySeg_insane (by simpa using hsane)] at he; cases he
    · intro he
      cases he with
      | @cons _ _ s ss' h1 h2 h3 =>
        rw [(shown_iff g (hs.mpr h1) s).mpr h2, (ih' ss').mpr h3]

/-- the first entry for which nothing can be shown decides -/
theorem entries_error {h : AHeader} {b : Bytes} (g : h.Geom b.length) {d : SDirent} {e : Err} (hd : entrySeg d h b = .error e) (C : List SDirent) :
    ∀ (A : List SDirent) (ss : List ISeg),
    (∀ d ∈ A, d.isSane = (!d.inUse || (decide (1 ≤ d.startingSector) && decide (d.startingSector ≤ h.maxSectors)))) →
    AllShown h b (A.map SDirent.info) ss → fileSegs SDirent.filename (fun d => d.getFile h b) b (A ++ d :: C) = .error e := by
  intro A
  induction A with
  | nil => intro ss _ _; rw [List.nil_append, fileSegs_cons_entry, hd]
  | cons a A ih =>
    intro ss ha hs
    rw [List.cons_append, fileSegs_cons_entry]
    rw [List.map_cons] at hs
    cases hs with
    | @cons _ _ s ss' h1 h2 h3 =>
      rw [(shown_iff g ((sane_iff (ha a (by simp))).mpr h1) s).mpr h2, ih ss' (fun x hx => ha x (by simp [hx])) h3]

/-! ### boot sector, bitmap, directory -/

theorem terminator_unique : ∀ (P P' : List Nat) {R R' : List Nat}, (∀ x ∈ P, x ≠ 0) → (∀ x ∈ P', x ≠ 0) → P ++ 0 :: R = P' ++ 0 :: R' → P = P' := by
  intro P
  induction P with
  | nil =>
    intro P' R R' _ h2 he
    cases P' with
    | nil => rfl
    | cons a P' => injection he with h3 _; exact absurd h3.symm (h2 a (by simp))
  | cons a P ih =>
    intro P' R R' h1 h2 he
    cases P' with
    | nil => injection he with h3 _; exact absurd h3 (h1 a (by simp))
    | cons c P' =>
      injection he with h3 h4
      rw [h3, ih P' (fun x hx => h1 x (by simp [hx])) (fun x hx => h2 x (by simp [hx])) h4]

theorem sparta_boot {h : AHeader} {b : Bytes} (g : h.Geom b.length) (hs : 2 ≤ h.sectorSize) (hm : 1 ≤ h.maxSectors) :
    spartaBootSegs h b = .ok (⟨.bootHeader, (sectorBytes h b 1).take 43⟩ ::
      if bootByte h b 1 > 0 then [⟨.bootHeader, (sectorBytes h b 1).take 43⟩, ⟨.bootCode, (sectorBytes h b 1).drop 43⟩] else []) := by
  obtain ⟨k, hp, hk, hl⟩ := getPos_first g hm
  have h1 := sectorBytes_eq (b := b) hp
  unfold spartaBootSegs
  rw [getSectors_valid g (by omega) hm]
  simp only
  have hsl : ∀ n, n ≤ 1 → h.getSectorSlice 1 n = .ok (h.headerOffset, h.headerOffset + k) := by
    intro n hn
    unfold AHeader.getSectorSlice
    rw [hp]
    simp only
    rw [show n - 1 = 0 by omega]
    rfl
  rw [hsl _ (by omega)]
  simp only
  rw [← h1, slice_zero]
  have hb : ((sectorBytes h b 1).getD 1 0).toNat = bootByte h b 1 := by
    rw [h1, getD_slice (by omega)]; rfl
  rw [hb]

theorem contiguous_valid {h : AHeader} {n : Nat} (g : h.Geom n) : ∀ (l : List Nat) (start count : Nat) {r},
    AHeader.getContiguous.go h l start count = .ok r → ∀ s ∈ l, 1 ≤ s ∧ s ≤ h.maxSectors := by
  intro l
  induction l with
  | nil => intro _ _ _ _; simp
  | cons i is ih =>
    intro start count r hr s hs
    unfold AHeader.getContiguous.go at hr
    by_cases hv : 1 ≤ i ∧ i ≤ h.maxSectors
    · obtain ⟨p, k, hp⟩ := AHeader.getPos_isOk g hv.1 hv.2
      rw [hp] at hr
      rcases List.mem_cons.mp hs with rfl | hs
      · exact hv
      · exact ih _ _ hr s hs
    · rw [getPos_error g hv] at hr; cases hr

theorem sectorBytes_sec {h : AHeader} {b : Bytes} {n : Nat} (g : h.Geom n) {s : Nat} (h1 : h.numInitialSectors < s) (h2 : s ≤ h.maxSectors) :
    sectorBytes h b s = sec h b s := by
  rw [sectorBytes_eq (AHeader.getPos_data g h1 h2)]; rfl

/-- the sectors of the bitmap; if the number of the last one does not fit into 16 bits, none -/
def bitmapSectors (h : AHeader) (b : Bytes) : List Nat :=
  if bootWord h b 16 + bootByte h b 15 < 65536 then List.range' (bootWord h b 16) (bootByte h b 15) else []

/-- a bitmap, if there is one, does not start where the program looks in a wrong place: in sector 1 of a file without a header, or in one of the short sectors -/
def BitmapPlaced (h : AHeader) (b : Bytes) : Prop :=
  bootByte h b 15 = 0 ∨ bootWord h b 16 = 0 ∨ (h.numInitialSectors < bootWord h b 16 ∧ (bootWord h b 16 = 1 → h.headerOffset ≠ 0))

theorem sparta_bitmap {h : AHeader} {b : Bytes} (g : h.Geom b.length) (hs : 18 ≤ h.sectorSize) (hm : 1 ≤ h.maxSectors) (h4 : BitmapPlaced h b) (ss : List ISeg) :
    spartaVtocSegs h b = .ok ss ↔ SectorsOf h (bitmapSectors h b) ∧ ss = [⟨.bitmap, (bitmapSectors h b).flatMap (sectorBytes h b)⟩] := by
  obtain ⟨k, hp, hk, hl⟩ := getPos_first g hm
  have h1 := sectorBytes_eq (b := b) hp
  have hg : ∀ i, i < 18 → (sectorBytes h b 1).getD i 0 = b.getD (h.headerOffset + i) 0 := by
    intro i hi
    rw [h1]; exact getD_slice (by omega)
  have hnum : ((sectorBytes h b 1).getD 15 0).toNat = bootByte h b 15 := by rw [hg 15 (by omega)]; rfl
  have hfirst : le16 ((sectorBytes h b 1).getD 16 0) ((sectorBytes h b 1).getD 17 0) = bootWord h b 16 := by
    rw [hg 16 (by omega), hg 17 (by omega)]; rfl
  have hr : List.range' (bootWord h b 16) (if bootWord h b 16 + bootByte h b 15 < 65536 then bootByte h b 15 else 0) = bitmapSectors h b := by
    unfold bitmapSectors
    split <;> rfl
  unfold spartaVtocSegs
  rw [getSectors_valid g (by omega) hm]
  simp only
  rw [hnum, hfirst]
  have fwd : SectorsOf h (bitmapSectors h b) → ∃ st ct,
      h.getContiguous (bootWord h b 16) (if bootWord h b 16 + bootByte h b 15 < 65536 then bootByte h b 15 else 0) = .ok (st, ct) ∧
      slice b st (st + ct) = (bitmapSectors h b).flatMap (sectorBytes h b) := by
    unfold bitmapSectors
    split
    · intro hv
      cases hn : bootByte h b 15 with
      | zero => exact ⟨0, 0, rfl, by simp [slice]⟩
      | succ j =>
        rw [hn] at hv
        obtain ⟨h4, h2⟩ : h.numInitialSectors < bootWord h b 16 ∧ (bootWord h b 16 = 1 → h.headerOffset ≠ 0) := by
          rcases h4 with h4 | h4 | h4
          · omega
          · have := (hv (bootWord h b 16) (by rw [List.mem_range'_1]; omega)).1
            omega
          · exact h4
        have hlast : bootWord h b 16 + (j + 1) ≤ h.maxSectors + 1 := by
          have := (hv (bootWord h b 16 + j) (by rw [List.mem_range'_1]; omega)).2
          omega
        have hpos : h.dpos (bootWord h b 16) ≠ 0 := by
          unfold AHeader.dpos
          by_cases h1 : bootWord h b 16 = 1
          · have := h2 h1
            omega
          have : 1 * h.sectorSize ≤ (bootWord h b 16 - 1 - h.numInitialSectors) * h.sectorSize + h.numInitialSectors * h.initialSectorSize := by
            rcases g.inits with gi | gi
            · have : 1 * h.sectorSize ≤ (bootWord h b 16 - 1 - h.numInitialSectors) * h.sectorSize := Nat.mul_le_mul_right _ (by omega)
              omega
            · rw [gi.1, gi.2.1]; omega
          omega
        refine ⟨_, _, getContiguous_data g (by omega) hlast hpos, ?_⟩
        rw [slice_sectors g _ _ (by omega) hlast, List.flatMap_def, List.flatMap_def]
        congr 1
        apply List.map_congr_left
        intro s hs
        rw [List.mem_range'_1] at hs
        rw [sectorBytes_sec g (by omega) (by omega)]
    · intro _
      exact ⟨0, 0, rfl, by simp [slice]⟩
  constructor
  · intro he
    cases hc : h.getContiguous (bootWord h b 16) (if bootWord h b 16 + bootByte h b 15 < 65536 then bootByte h b 15 else 0) with
    | error e => rw [hc] at he; cases he
    | ok q =>
      obtain ⟨st, ct⟩ := q
      have hv := contiguous_valid g _ _ _ hc
      rw [hr] at hv
      obtain ⟨st', ct', e1, e2⟩ := fwd hv
      rw [e1] at he
      cases he
      exact ⟨hv, by rw [e2]⟩
  · rintro ⟨hv, rfl⟩
    obtain ⟨st', ct', e1, e2⟩ := fwd hv
    rw [e1]
    simp only
    rw [e2]

/-- **C91, the bitmap.** If the bitmap starts in sector 1 of a file without a header, as many bytes as it has are shown, but those that begin with sector 2. -/
theorem C91_refuted_bitmap {h : AHeader} {b : Bytes} (g : h.Geom b.length) (hs : 18 ≤ h.sectorSize) (hi : h.numInitialSectors = 0) (h0 : h.headerOffset = 0)
    (hf : bootWord h b 16 = 1) {n : Nat} (hn : bootByte h b 15 = n + 2) (hm : n + 2 ≤ h.maxSectors) :
    spartaVtocSegs h b = .ok [⟨.bitmap, slice b h.sectorSize (h.sectorSize + (n + 2) * h.sectorSize)⟩] := by
  obtain ⟨k, hp, hk, hl⟩ := getPos_first g (show 1 ≤ h.maxSectors by omega)
  have h1 := sectorBytes_eq (b := b) hp
  have hg : ∀ i, i < 18 → (sectorBytes h b 1).getD i 0 = b.getD (h.headerOffset + i) 0 := by
    intro i hi
    rw [h1]; exact getD_slice (by omega)
  have hnum : ((sectorBytes h b 1).getD 15 0).toNat = bootByte h b 15 := by rw [hg 15 (by omega)]; rfl
  have hfirst : le16 ((sectorBytes h b 1).getD 16 0) ((sectorBytes h b 1).getD 17 0) = bootWord h b 16 := by
    rw [hg 16 (by omega), hg 17 (by omega)]; rfl
  have hlt : n + 2 < 256 := by rw [← hn]; exact UInt8.toNat_lt _
  unfold spartaVtocSegs
  rw [getSectors_valid g (by omega) (by omega)]
  simp only
  rw [hnum, hfirst, hf, hn, if_pos (by omega)]
  have d1 := AHeader.getPos_data g (s := 1) (by omega) (by omega)
  have d2 := AHeader.getPos_data g (s := 2) (by omega) (by omega)
  have e1 : h.dpos 1 = 0 := by unfold AHeader.dpos; rw [hi, h0]; simp
  have e2 : h.dpos 2 = h.sectorSize := by unfold AHeader.dpos; rw [hi, h0]; simp
  have hne : h.dpos 2 ≠ 0 := by omega
  unfold AHeader.getContiguous
  rw [List.range'_succ, List.range'_succ]
  unfold AHeader.getContiguous.go
  rw [d1]
  simp only
  rw [if_pos trivial, e1]
  unfold AHeader.getContiguous.go
  rw [d2]
  simp only
  rw [if_pos trivial, getContiguous_go_data g n (1 + 1 + 1) _ _ (by omega) (by omega) hne, e2]
  simp only
  rw [show 0 + h.sectorSize + h.sectorSize + n * h.sectorSize = (n + 2) * h.sectorSize by rw [Nat.add_mul]; omega]

/-- where the bitmap of a double density disk starts: the first three sectors have 128 bytes each -/
def shortPlace (h : AHeader) (s : Nat) : Nat := h.headerOffset + 128 * (s - 1)

/-- how many bytes `n` sectors from a short sector on have: 128 up to sector 3, then 256 -/
def shortSize (s n : Nat) : Nat := min n (4 - s) * 128 + (n - (4 - s)) * 256

theorem getPos_short {h : AHeader} {n : Nat} (g : h.Geom n) (hi : h.numInitialSectors = 3) {s : Nat} (h1 : 1 ≤ s) (h3 : s ≤ 3) :
    h.getPos s = .ok (3 * (s - 1) + h.headerOffset, 128) := by
  have hm := g.max
  have hl := g.label
  rcases g.inits with gi | ⟨_, g2, _, _⟩
  · omega
  unfold AHeader.getPos AHeader.sectorIsValid
  rw [hl, hi, g2]
  have h2 : 3 ≤ h.maxSectors := by rw [hm, hi]; exact Nat.le_add_left _ _
  have hv : (decide (1 ≤ s) && decide (s < h.maxSectors + 1)) = true := by
    simp only [Bool.and_eq_true, decide_eq_true_eq]
    omega
  rw [hv]
  simp [h3]

theorem go_short {h : AHeader} {n : Nat} (g : h.Geom n) (hi : h.numInitialSectors = 3) : ∀ (s j start count : Nat), 1 ≤ s → s ≤ 4 → j < 256 → start ≠ 0 →
    AHeader.getContiguous.go h (List.range' s j) start count = .ok (start, count + shortSize s j) := by
  have hm : h.maxSectors = 720 := by
    have := g.max
    rcases g.inits with gi | ⟨g1, g2, g3, g4⟩
    · omega
    · rw [g1, g2, g3, g4] at this; exact this
  have h256 : h.sectorSize = 256 := by rcases g.inits with gi | gi <;> omega
  have h4 : ∀ (j start count : Nat), j < 256 → start ≠ 0 →
      AHeader.getContiguous.go h (List.range' 4 j) start count = .ok (start, count + shortSize 4 j) := by
    intro j start count hj hs
    rw [getContiguous_go_data g j 4 start count (by omega) (by omega) hs, h256]
    simp [shortSize]
  have step : ∀ s, 1 ≤ s → s ≤ 3 → (∀ (j start count : Nat), j < 256 → start ≠ 0 →
      AHeader.getContiguous.go h (List.range' (s + 1) j) start count = .ok (start, count + shortSize (s + 1) j)) → ∀ (j start count : Nat), j < 256 → start ≠ 0 →
      AHeader.getContiguous.go h (List.range' s j) start count = .ok (start, count + shortSize s j) := by
    intro s h1 h3 ih j start count hj hs
    cases j with
    | zero => simp [AHeader.getContiguous.go, shortSize]
    | succ j =>
      rw [List.range'_succ]
      unfold AHeader.getContiguous.go
      rw [getPos_short g hi h1 h3]
      simp only
      rw [if_neg hs, ih j start _ (by omega) hs]
      congr 2
      unfold shortSize
      omega
  intro s j start count h1 h2
  have s3 := step 3 (by omega) (by omega) h4
  have s2 := step 2 (by omega) (by omega) s3
  have s1 := step 1 (by omega) (by omega) s2
  have : s = 1 ∨ s = 2 ∨ s = 3 ∨ s = 4 := by omega
  rcases this with rfl | rfl | rfl | rfl
  · exact s1 j start count
  · exact s2 j start count
  · exact s3 j start count
  · exact h4 j start count

/-- **C91, bitmaps in the short sectors.** If the bitmap of a double density disk starts in one of the three short sectors, as many bytes are shown as
it has, but from byte `3 (s - 1)` of the disk on. -/
theorem C91_refuted_short {h : AHeader} {b : Bytes} (g : h.Geom b.length) (hi : h.numInitialSectors = 3) (h1 : 1 ≤ bootWord h b 16) (h3 : bootWord h b 16 ≤ 3)
    (hn : 1 ≤ bootByte h b 15) (h0 : bootWord h b 16 = 1 → h.headerOffset ≠ 0) : spartaVtocSegs h b = .ok [⟨.bitmap,
      slice b (h.headerOffset + 3 * (bootWord h b 16 - 1)) (h.headerOffset + 3 * (bootWord h b 16 - 1) + shortSize (bootWord h b 16) (bootByte h b 15))⟩] := by
  have hmax : h.maxSectors = 720 := by
    have := g.max
    rcases g.inits with gi | ⟨g1, g2, g3, g4⟩
    · omega
    · rw [g1, g2, g3, g4] at this; exact this
  have hss : h.sectorSize = 256 := by rcases g.inits with gi | gi <;> omega
  have hp := getPos_short g hi (Nat.le_refl 1) (by omega)
  have e1 := sectorBytes_eq (b := b) hp
  have hg : ∀ i, i < 18 → (sectorBytes h b 1).getD i 0 = b.getD (h.headerOffset + i) 0 := by
    intro i hi
    rw [e1, show 3 * (1 - 1) + h.headerOffset = h.headerOffset by omega]; exact getD_slice (by omega)
  have hnum : ((sectorBytes h b 1).getD 15 0).toNat = bootByte h b 15 := by rw [hg 15 (by omega)]; rfl
  have hfirst : le16 ((sectorBytes h b 1).getD 16 0) ((sectorBytes h b 1).getD 17 0) = bootWord h b 16 := by
    rw [hg 16 (by omega), hg 17 (by omega)]; rfl
  have hlt : bootByte h b 15 < 256 := UInt8.toNat_lt _
  unfold spartaVtocSegs
  rw [getSectors_valid g (by omega) (by omega)]
  simp only
  rw [hnum, hfirst, if_pos (by omega)]
  generalize bootWord h b 16 = f at *
  generalize bootByte h b 15 = n at *
  obtain ⟨n, rfl⟩ : ∃ k, n = k + 1 := ⟨n - 1, by omega⟩
  unfold AHeader.getContiguous
  rw [List.range'_succ]
  unfold AHeader.getContiguous.go
  rw [getPos_short g hi h1 h3]
  simp only
  have hne : 3 * (f - 1) + h.headerOffset ≠ 0 := by
    by_cases hf : f = 1
    · have := h0 hf; omega
    · omega
  rw [if_pos trivial, go_short g hi (f + 1) n _ _ (by omega) (by omega) (by omega) hne]
  simp only
  rw [show 0 + 128 + shortSize (f + 1) n = shortSize f (n + 1) by unfold shortSize; omega, Nat.add_comm (3 * (f - 1))]

/-- **C91, the same without a header.** In a file without a header a bitmap from sector 1 on is shown from byte 3 on if it has more than one sector, and rightly if it has one. -/
theorem C91_refuted_short_bare {h : AHeader} {b : Bytes} (g : h.Geom b.length) (hi : h.numInitialSectors = 3) (h1 : bootWord h b 16 = 1)
    (h0 : h.headerOffset = 0) {n : Nat} (hn : bootByte h b 15 = n + 2) :
    spartaVtocSegs h b = .ok [⟨.bitmap, slice b 3 (3 + shortSize 1 (n + 2))⟩] := by
  have hmax : h.maxSectors = 720 := by
    have := g.max
    rcases g.inits with gi | ⟨g1, g2, g3, g4⟩
    · omega
    · rw [g1, g2, g3, g4] at this; exact this
  have hss : h.sectorSize = 256 := by rcases g.inits with gi | gi <;> omega
  have hp := getPos_short g hi (Nat.le_refl 1) (by omega)
  have e1 := sectorBytes_eq (b := b) hp
  have hg : ∀ i, i < 18 → (sectorBytes h b 1).getD i 0 = b.getD (h.headerOffset + i) 0 := by
    intro i hi
    rw [e1, show 3 * (1 - 1) + h.headerOffset = h.headerOffset by omega]; exact getD_slice (by omega)
  have hnum : ((sectorBytes h b 1).getD 15 0).toNat = bootByte h b 15 := by rw [hg 15 (by omega)]; rfl
  have hfirst : le16 ((sectorBytes h b 1).getD 16 0) ((sectorBytes h b 1).getD 17 0) = bootWord h b 16 := by
    rw [hg 16 (by omega), hg 17 (by omega)]; rfl
  have hlt : n + 2 < 256 := by rw [← hn]; exact UInt8.toNat_lt _
  unfold spartaVtocSegs
  rw [getSectors_valid g (by omega) (by omega)]
  simp only
  rw [hnum, hfirst, h1, hn, if_pos (by omega)]
  unfold AHeader.getContiguous
  rw [List.range'_succ, List.range'_succ]
  unfold AHeader.getContiguous.go
  rw [getPos_short g hi (by omega) (by omega)]
  simp only
  rw [if_pos trivial, h0]
  unfold AHeader.getContiguous.go
  rw [getPos_short g hi (by omega) (by omega)]
  simp only
  rw [if_pos trivial, h0, go_short g hi (1 + 1 + 1) n _ _ (by omega) (by omega) (by omega) (by omega)]
  simp only
  rw [show 0 + 128 + 128 + shortSize (1 + 1 + 1) n = shortSize 1 (n + 2) by unfold shortSize; omega]

/-- what is shown is the bitmap only if the disk repeats itself: byte `i` shown is byte `i` of the bitmap only if byte `i` after `3 (s - 1)` and
byte `i` after `128 (s - 1)` are equal -/
theorem C91_short_wrong {h : AHeader} {b : Bytes} {s n i : Nat} (hi : i < shortSize s n) :
    (slice b (h.headerOffset + 3 * (s - 1)) (h.headerOffset + 3 * (s - 1) + shortSize s n)).getD i 0 = b.getD (h.headerOffset + 3 * (s - 1) + i) 0 ∧
    (slice b (shortPlace h s) (shortPlace h s + shortSize s n)).getD i 0 = b.getD (h.headerOffset + 128 * (s - 1) + i) 0 :=
  ⟨getD_slice (by omega), getD_slice (by unfold shortPlace; omega)⟩

/-- a double density disk with a bitmap of one sector in sector 2: the byte shown first is 7, the bitmap starts with 0 -/
example : ∃ (h : AHeader) (b : Bytes) (d : Bytes), h.Geom b.length ∧ spartaVtocSegs h b = .ok [⟨.bitmap, d⟩] ∧ d.getD 0 0 = 7 ∧
    b.getD (shortPlace h 2) 0 = 0 := by
  let h : AHeader := { imageSize := 183936, sectorSize := 256, headerOffset := 16, initialSectorSize := 128, numInitialSectors := 3, maxSectors := 720,
                       payloadBytes := 253 }
  have hlen : (List.replicate 19 (0 : UInt8) ++ [7] ++ List.replicate 11 0 ++ [1, 2] ++ List.replicate 183919 0).length = 183952 := by
    simp only [List.length_append, List.length_replicate, List.length_cons, List.length_nil]
  have hget : ∀ i, i < 300 → (List.replicate 19 (0 : UInt8) ++ [7] ++ List.replicate 11 0 ++ [1, 2] ++ List.replicate 183919 0).getD i 0 =
      if i = 19 then 7 else if i = 31 then 1 else if i = 32 then 2 else 0 := by
    intro i hi
    rw [List.getD_eq_getElem?_getD]
    by_cases h1 : i < 33
    · rw [List.getElem?_append_left (by simp; omega)]
      have : ∀ i < 33, ((List.replicate 19 (0 : UInt8) ++ [7] ++ List.replicate 11 0 ++ [1, 2])[i]?.getD 0) =
          if i = 19 then 7 else if i = 31 then 1 else if i = 32 then 2 else 0 := by decide
      exact this i h1
    · rw [List.getElem?_append_right (by simp; omega), List.getElem?_replicate]
      simp only [List.length_append, List.length_replicate, List.length_cons, List.length_nil]
      rw [if_pos (by omega), if_neg (by omega), if_neg (by omega), if_neg (by omega)]
      rfl
  generalize List.replicate 19 (0 : UInt8) ++ [7] ++ List.replicate 11 0 ++ [1, 2] ++ List.replicate 183919 0 = b at hlen hget
  have g : h.Geom b.length := ⟨rfl, by decide, .inr ⟨rfl, rfl, rfl, rfl⟩, rfl, by decide +kernel, by rw [hlen]; decide +kernel⟩
  have h16 : bootWord h b 16 = 2 := by
    unfold bootWord bootByte
    rw [hget _ (by decide), hget _ (by decide)]
    rfl
  have h15 : bootByte h b 15 = 1 := by
    unfold bootByte
    rw [hget _ (by decide)]
    rfl
  have hs := C91_refuted_short g rfl (by omega) (by omega) (by omega) (by omega)
  refine ⟨h, b, _, g, hs, ?_, ?_⟩
  · rw [(C91_short_wrong (by rw [h16, h15]; decide)).1, h16, hget _ (by decide)]
    rfl
  · rw [hget _ (by decide)]
    rfl

/-- the directory entry of the root directory -/
theorem sparta_root {h : AHeader} {b : Bytes} (g : h.Geom b.length) {root t : Nat} {M : List Nat} (hM : MapOf h b root (t :: M))
    (ht : 1 ≤ t ∧ t ≤ h.maxSectors) (h23 : 23 ≤ (sectorBytes h b t).length) : ∃ d : SDirent, spartaRootDirent h b root = .ok (some d) ∧ d.isSane = true ∧
      d.startingSector = root ∧ d.length = (sInfo (slice (sectorBytes h b t) 0 23)).length := by
  have hroot : 1 ≤ root ∧ root ≤ h.maxSectors := by
    generalize he : t :: M = L at hM
    cases hM with
    | nil => cases he
    | cons hs _ => exact ⟨hs.1, hs.2.1⟩
  have hmap := (spartaMap_ok_iff g root _).mpr ⟨by omega, hM⟩
  obtain ⟨p, k, hp⟩ := AHeader.getPos_isOk g ht.1 ht.2
  have hsec := sectorBytes_eq (b := b) hp
  have hraw : h.getRawBytes b t = .ok (sectorBytes h b t, p, k) := by
    unfold AHeader.getRawBytes
    rw [hp, hsec]
  obtain ⟨d, e1, -, e3, -⟩ := C78_record g 0 (e := slice (sectorBytes h b t) 0 23) (by rw [length_slice]; omega)
  unfold spartaRootDirent
  rw [hmap]
  simp only
  rw [if_neg (by omega), hraw]
  simp only
  rw [e1]
  simp only
  refine ⟨_, rfl, ?_, rfl, ?_⟩
  · unfold SDirent.sanityCheck
    simp only
    split
    · rfl
    · exact (AHeader.sectorIsValid_iff g root).mpr hroot
  · rw [← e3]; rfl

/-- What is shown of the disk besides its files: the ATR header and the rest, the boot sector taken apart (its beginning twice if there is a boot
program), the bitmap, and the bytes of the root directory. -/
def spartaFront (h : AHeader) (b dir : Bytes) : List ISeg :=
  [⟨.header, b.take h.headerOffset⟩, ⟨.raw, b.drop h.headerOffset⟩, ⟨.bootHeader, (sectorBytes h b 1).take 43⟩] ++
  (if bootByte h b 1 > 0 then [⟨.bootHeader, (sectorBytes h b 1).take 43⟩, ⟨.bootCode, (sectorBytes h b 1).drop 43⟩] else []) ++
  [⟨.bitmap, (bitmapSectors h b).flatMap (sectorBytes h b)⟩, ⟨.directory, dir⟩]

/-- `dir` are the bytes of the root directory: those of the sectors in its map, as many as its first record says; the whole image if it says none -/
def RootBytes (h : AHeader) (b dir : Bytes) : Prop :=
  ∃ t P R, MapOf h b (bootWord h b 9) (t :: P ++ 0 :: R) ∧ SectorsOf h (t :: P) ∧
    dir = if (sInfo (slice (sectorBytes h b t) 0 23)).length ≤ 0 then b
      else ((t :: P).flatMap (sectorBytes h b)).take (sInfo (slice (sectorBytes h b t) 0 23)).length.toNat

theorem sparta_dir {b : Bytes} {m : SImg} (hm : SImg.open b = .ok m) (hs : 33 ≤ m.hdr.sectorSize) :
    m.rootDir = bootWord m.hdr b 9 ∧ 1 ≤ m.hdr.maxSectors ∧
    ((∃ dir d, RootBytes m.hdr b dir ∧ spartaRootDirent m.hdr b m.rootDir = .ok (some d) ∧ d.getFile m.hdr b = .ok dir) ∨
      (m.files = [] ∧ (∀ dir, ¬ RootBytes m.hdr b dir) ∧ spartaRootDirent m.hdr b m.rootDir = .ok none)) := by
  obtain ⟨ho, hb⟩ := open_sparta hm
  have g := openHeader_geom ho
  obtain ⟨hlike, M, hM, hcase⟩ := (C78_opens ho hs (m.files.map SDirent.info)).mp ⟨m, hm, hb, rfl⟩
  have hmax : 1 ≤ m.hdr.maxSectors := by
    clear hlike
    generalize bootWord m.hdr b 9 = root at hM
    cases hM with
    | nil => rcases hcase with ⟨R, h1, _⟩ | ⟨t, P, R, h1, _⟩ <;> cases h1
    | cons hs _ => exact Nat.le_trans hs.1 hs.2.1
  have hroot : m.rootDir = bootWord m.hdr b 9 := by
    unfold SImg.open at hm
    rw [ho] at hm
    simp only at hm
    rw [spartaBoot_eq g hs hmax, if_pos hlike] at hm
    simp only at hm
    split at hm
    · cases hm
    · exact (congrArg SImg.rootDir (Except.ok.inj hm)).symm
  refine ⟨hroot, hmax, ?_⟩
  rw [hroot]
  rcases hcase with ⟨R, rfl, hL⟩ | ⟨t, P, R, rfl, hP, h23, hcase⟩
  · refine Or.inr ⟨List.map_eq_nil_iff.mp hL, ?_, ?_⟩
    · rintro dir ⟨t, P, R', h1, h2, -⟩
      have := hM.unique h1
      injection this with h3 _
      have := (h2 t (by simp)).1
      omega
    · have h0 := hM.start_ne (by simp)
      unfold spartaRootDirent
      rw [(spartaMap_ok_iff g _ _).mpr ⟨h0, hM⟩]
      simp only
      rw [if_pos trivial]
  · left
    obtain ⟨d, e1, e2, e3, e4⟩ := sparta_root g hM (hP t (by simp)) h23
    refine ⟨_, d, ⟨t, P, R, hM, hP, rfl⟩, e1, ?_⟩
    rw [← e4]
    by_cases hl : d.length ≤ 0
    · rw [if_pos hl]
      exact C42_refuted_empty ho e2 (by rw [e3]; exact hM) hP (Or.inr hl)
    · rw [if_neg hl]
      exact C42_read_partial ho e2 (by rw [e3]; exact hM) hP (by simp) (by omega)

/-- **C91.** A SpartaDOS disk is shown exactly if its bitmap is on the disk, its root directory has a sector, and something can be shown for each
entry.  Shown are the front matter and the entries in order, each with its bytes. -/
theorem C91_segments {b : Bytes} {m : SImg} (hm : SImg.open b = .ok m) (hs : 33 ≤ m.hdr.sectorSize) (h4 : BitmapPlaced m.hdr b) (segs : List ISeg) :
    m.segments = .ok segs ↔ ∃ dir fs, RootBytes m.hdr b dir ∧ SectorsOf m.hdr (bitmapSectors m.hdr b) ∧
      AllShown m.hdr b (m.files.map SDirent.info) fs ∧ segs = spartaFront m.hdr b dir ++ fs := by
  obtain ⟨ho, hb⟩ := open_sparta hm
  have g := openHeader_geom ho
  obtain ⟨hroot, hmax, hdir⟩ := sparta_dir hm hs
  have hfil := fun ss => entries_iff g m.files ss (C78_sane hm)
  unfold SImg.segments
  rw [hb, sparta_boot g (by omega) hmax]
  simp only
  rw [baseSegs_eq b (openHeader_size ho hmax)]
  constructor
  · intro he
    cases hv : spartaVtocSegs m.hdr b with
    | error e => rw [hv] at he; cases he
    | ok s2 =>
      rw [hv] at he
      simp only at he
      obtain ⟨v1, rfl⟩ := (sparta_bitmap g (by omega) hmax h4 s2).mp hv
      rcases hdir with ⟨dir, d, r1, r2, r3⟩ | ⟨_, _, r2⟩
      · rw [r2] at he
        simp only at he
        rw [r3] at he
        simp only at he
        cases hf : fileSegs SDirent.filename (fun d => d.getFile m.hdr b) b m.files with
        | error e => rw [hf] at he; cases he
        | ok fs =>
          rw [hf] at he
          simp only at he
          refine ⟨dir, fs, r1, v1, (hfil fs).mp hf, ?_⟩
          rw [← Except.ok.inj he]
          unfold spartaFront
          simp
      · rw [r2] at he; cases he
  · rintro ⟨dir, fs, r1, v1, f1, rfl⟩
    rw [(sparta_bitmap g (by omega) hmax h4 _).mpr ⟨v1, rfl⟩]
    simp only
    rcases hdir with ⟨dir', d, r1', r2, r3⟩ | ⟨_, hno, _⟩
    · obtain rfl : dir' = dir := by
        obtain ⟨t, P, R, a1, a2, rfl⟩ := r1
        obtain ⟨t', P', R', a1', a2', rfl⟩ := r1'
        have hu := a1'.unique a1
        rw [List.cons_append, List.cons_append] at hu
        injection hu with hu1 hu2
        subst hu1
        have : P' = P := terminator_unique _ _ (fun x hx => by have := (a2' x (by simp [hx])).1; omega) (fun x hx => by have := (a2 x (by simp [hx])).1; omega) hu2
        subst this
        rfl
      rw [r2]
      simp only
      rw [r3]
      simp only
      rw [(hfil fs).mpr f1]
      simp only
      unfold spartaFront
      simp
    · exact absurd r1 (hno dir)

/-- **C91, the boot sectors.** The boot sectors as a whole are never shown, and of the code only what is in sector 1, however many boot sectors there are. -/
theorem C91_no_boot {b : Bytes} {m : SImg} (hm : SImg.open b = .ok m) (hs : 33 ≤ m.hdr.sectorSize) (h4 : BitmapPlaced m.hdr b) {segs : List ISeg}
    (hseg : m.segments = .ok segs) : (∀ s ∈ segs, s.name ≠ .bootSectors) ∧ (∀ s ∈ segs, s.name = .bootCode → s.data = (sectorBytes m.hdr b 1).drop 43) := by
  obtain ⟨dir, fs, -, -, hf, rfl⟩ := (C91_segments hm hs h4 segs).mp hseg
  have hfs : ∀ s ∈ fs, s.name ≠ .bootSectors ∧ s.name ≠ .bootCode := by
    clear hseg
    generalize m.files.map SDirent.info = l at hf
    induction hf with
    | nil => simp
    | @cons i l s ss _ h1 _ ih =>
      intro x hx
      rcases List.mem_cons.mp hx with rfl | hx
      · cases h1 <;> exact ⟨nofun, nofun⟩
      · exact ih x hx
  have hfront : ∀ s ∈ spartaFront m.hdr b dir, s.name ≠ .bootSectors ∧ (s.name = .bootCode → s.data = (sectorBytes m.hdr b 1).drop 43) := by
    intro s hs
    unfold spartaFront at hs
    split at hs <;> simp only [List.append_nil, List.cons_append, List.nil_append, List.mem_cons, List.not_mem_nil, or_false] at hs
    · rcases hs with rfl | rfl | rfl | rfl | rfl | rfl | rfl <;> exact ⟨nofun, fun h => by first | rfl | cases h⟩
    · rcases hs with rfl | rfl | rfl | rfl | rfl <;> exact ⟨nofun, fun h => by first | rfl | cases h⟩
  refine ⟨fun s h => ?_, fun s h => ?_⟩ <;> rcases List.mem_append.mp h with h | h
  · exact (hfront s h).1
  · exact (hfs s h).1
  · exact (hfront s h).2
  · intro hn; exact absurd hn (hfs s h).2

/-! ### disks that are not shown -/

/-- the disk but for the entries from `d` on -/
structure ShownUpTo (b : Bytes) (m : SImg) (d : SDirent) : Prop where
  opens : SImg.open b = .ok m
  size : 33 ≤ m.hdr.sectorSize
  first : BitmapPlaced m.hdr b
  bitmap : SectorsOf m.hdr (bitmapSectors m.hdr b)
  root : ∃ dir, RootBytes m.hdr b dir
  before : ∃ A C fs, m.files = A ++ d :: C ∧ AllShown m.hdr b (A.map SDirent.info) fs

theorem segments_error {b : Bytes} {m : SImg} {d : SDirent} {e : Err} (u : ShownUpTo b m d) (hd : entrySeg d m.hdr b = .error e) : m.segments = .error e := by
  obtain ⟨ho, hb⟩ := open_sparta u.opens
  have g := openHeader_geom ho
  obtain ⟨hroot, hmax, hdir⟩ := sparta_dir u.opens u.size
  have hs := u.size
  obtain ⟨A, C, fs, hfile, hA⟩ := u.before
  unfold SImg.segments
  rw [hb, sparta_boot g (by omega) hmax]
  simp only
  rw [(sparta_bitmap g (by omega) hmax u.first _).mpr ⟨u.bitmap, rfl⟩]
  simp only
  rcases hdir with ⟨dir', d', r1', r2, r3⟩ | ⟨_, hno, _⟩
  · rw [r2]
    simp only
    rw [r3]
    simp only
    have := entries_error g hd C A fs (fun x hx => C78_sane u.opens x (by rw [hfile]; simp [hx])) hA
    rw [← hfile] at this
    rw [this]
  · obtain ⟨dir, hr⟩ := u.root
    exact absurd hr (hno dir)

theorem spartaParser_error {b : Bytes} {m : SImg} {e : Err} (hm : SImg.open b = .ok m) (hu : UsualDisk m.hdr b) (hs : m.segments = .error e) :
    spartaParser b true = .error (sealErr e) := by
  obtain ⟨ho, hb⟩ := open_sparta hm
  have e0 := diskClass_parser SImg.open SImg.hdr (fun m => m.bytes.length) SImg.segments (fun x => .sparta x.1 x.2) b
  change spartaParser b true = _ at e0
  rw [e0, hm]
  simp only
  rw [if_pos (by rw [hb]; exact hu), hs]

theorem detect_sparta_error {L : Libs} {b : Bytes} {m : SImg} {e : Err} (p : PlainDisk L m.hdr b) (hk : ¬ KbootLike m.hdr b) (hm : SImg.open b = .ok m)
    (hs : m.segments = .error e) (he : e.isAtr = false) : detect L b = .error (.py e) := by
  have h1 := p.sectorSize
  apply detect_atr_error p.plain
  have hp := kbootParser_eq p.opens (by omega) p.sectors p.usual
  rw [if_neg hk] at hp
  unfold atrParsers
  rw [try_step hp, tryParsers, spartaParser_error hm p.usual hs]
  cases e <;> first | rfl | cases he

/-- **C91, deleted entries.** An entry that is not in use and has no map sector (all zeros, say) makes the whole disk unusable: `TypeError`. -/
theorem C91_refuted_unused {L : Libs} {b : Bytes} {m : SImg} {d : SDirent} (p : PlainDisk L m.hdr b) (hk : ¬ KbootLike m.hdr b) (u : ShownUpTo b m d)
    (hi : d.inUse = false) (h0 : d.startingSector = 0) : detect L b = .error (.py .typeError) := by
  obtain ⟨A, C, fs, hfile, hA⟩ := u.before
  have hsane := C78_sane u.opens d (by rw [hfile]; simp)
  rw [hi] at hsane
  exact detect_sparta_error p hk u.opens (segments_error u (entrySeg_zero hsane h0)) rfl

/-- **C91, full maps.** A file whose map has no zero, because the sectors of the file fill it, makes the whole disk unusable: `IndexError`. -/
theorem C91_refuted_full {L : Libs} {b : Bytes} {m : SImg} {d : SDirent} (p : PlainDisk L m.hdr b) (hk : ¬ KbootLike m.hdr b) (u : ShownUpTo b m d)
    (hi : d.info.Sane m.hdr) (h0 : d.startingSector ≠ 0) {M : List Nat} (hM : MapOf m.hdr b d.startingSector M) (hv : SectorsOf m.hdr M) :
    detect L b = .error (.py .indexError) := by
  obtain ⟨A, C, fs, hfile, hA⟩ := u.before
  have hsane := (sane_iff (C78_sane u.opens d (by rw [hfile]; simp))).mpr hi
  obtain ⟨ho, hb⟩ := open_sparta u.opens
  exact detect_sparta_error p hk u.opens (segments_error u (entrySeg_full (openHeader_geom ho) hsane hM h0 hv)) rfl

/-- **C91, cyclic maps.** A file whose map sectors link in a circle makes the program loop forever. -/
theorem C91_refuted_circle {L : Libs} {b : Bytes} {m : SImg} {d : SDirent} (p : PlainDisk L m.hdr b) (hk : ¬ KbootLike m.hdr b) (u : ShownUpTo b m d)
    (hi : d.info.Sane m.hdr) (h0 : d.startingSector ≠ 0) (hh : ∀ fuel, mapLoop m.hdr b fuel d.startingSector = .error .hang) :
    detect L b = .error (.py .hang) := by
  obtain ⟨A, C, fs, hfile, hA⟩ := u.before
  have hsane := (sane_iff (C78_sane u.opens d (by rw [hfile]; simp))).mpr hi
  obtain ⟨ho, hb⟩ := open_sparta u.opens
  exact detect_sparta_error p hk u.opens (segments_error u (entrySeg_hang hsane ((C57_map_hang_iff ho _).mpr ⟨h0, hh⟩))) rfl

/-- a disk whose root directory has a map but no sector -/
theorem segments_no_root {b : Bytes} {m : SImg} (hm : SImg.open b = .ok m) (hs : 33 ≤ m.hdr.sectorSize) (h4 : BitmapPlaced m.hdr b)
    (hv : SectorsOf m.hdr (bitmapSectors m.hdr b)) {M : List Nat} (hM : MapOf m.hdr b (bootWord m.hdr b 9) (0 :: M)) :
    m.segments = .error .attributeError := by
  obtain ⟨ho, hb⟩ := open_sparta hm
  have g := openHeader_geom ho
  obtain ⟨hroot, hmax, hdir⟩ := sparta_dir hm hs
  unfold SImg.segments
  rw [hb, sparta_boot g (by omega) hmax]
  simp only
  rw [(sparta_bitmap g (by omega) hmax h4 _).mpr ⟨hv, rfl⟩]
  simp only
  rcases hdir with ⟨dir, d, ⟨t, P, R, a1, a2, -⟩, -, -⟩ | ⟨_, _, r2⟩
  · have := hM.unique a1
    rw [List.cons_append] at this
    injection this with h3 _
    have := (a2 t (by simp)).1
    omega
  · rw [r2]

/-- **C91, no root directory.** A disk that is read without complaint and has no files, because the map of its root directory is empty, makes the
program fail when it is shown: `AttributeError`. -/
theorem C91_refuted_root {L : Libs} {b : Bytes} {m : SImg} (p : PlainDisk L m.hdr b) (hk : ¬ KbootLike m.hdr b) (hm : SImg.open b = .ok m)
    (hs : 33 ≤ m.hdr.sectorSize) (h4 : BitmapPlaced m.hdr b) (hv : SectorsOf m.hdr (bitmapSectors m.hdr b)) {M : List Nat}
    (hM : MapOf m.hdr b (bootWord m.hdr b 9) (0 :: M)) : m.files = [] ∧ detect L b = .error (.py .attributeError) := by
  refine ⟨?_, detect_sparta_error p hk hm (segments_no_root hm hs h4 hv hM) rfl⟩
  obtain ⟨-, -, ⟨dir, d, ⟨t, P, R, a1, a2, -⟩, -, -⟩ | ⟨h, _⟩⟩ := sparta_dir hm hs
  · have := hM.unique a1
    rw [List.cons_append] at this
    injection this with h3 _
    have := (a2 t (by simp)).1
    omega
  · exact h

/-- the other parsers of Atari disks -/
theorem rest_not_sparta {b : Bytes} {h : AHeader} (ho : openHeader b = .ok h) (hm : 1 ≤ h.maxSectors) (hu : UsualDisk h b) {o : Option Image}
    (hr : tryParsers true b [atariParser, bootParser, diskParser] = .ok o) : ∃ x, o = some x ∧ ∀ m segs, x ≠ .sparta m segs := by
  have e1 := diskClass_parser AImg.open AImg.hdr (fun m => m.bytes.length) AImg.segments (fun x => .atari x.1 x.2) b
  change atariParser b true = _ at e1
  have e2 := diskClass_parser openBoot HImg.hdr (fun m => m.bytes.length) (fun m => bootSegments m.hdr m.bytes) (fun x => .boot x.1 x.2) b
  change bootParser b true = _ at e2
  have e3 := diskParser_eq ho hm hu
  have a1 : ∀ x, atariParser b true = .ok x → ∀ m segs, x ≠ .sparta m segs := by
    intro x hx m segs
    rw [e1] at hx
    split at hx
    · cases hx
    · split at hx
      · split at hx <;> cases hx
        exact nofun
      · cases hx
  have a2 : ∀ x, bootParser b true = .ok x → ∀ m segs, x ≠ .sparta m segs := by
    intro x hx m segs
    rw [e2] at hx
    split at hx
    · cases hx
    · split at hx
      · split at hx <;> cases hx
        exact nofun
      · cases hx
  rw [tryParsers] at hr
  split at hr
  · rename_i x hx
    cases hr
    exact ⟨x, rfl, a1 x hx⟩
  · rw [tryParsers] at hr
    split at hr
    · rename_i x hx
      cases hr
      exact ⟨x, rfl, a2 x hx⟩
    · rw [try_take e3] at hr
      cases hr
      exact ⟨_, rfl, nofun⟩
    · cases hr
  · cases hr

/-- **C91, damaged entries.** An entry that is in use and whose map sector is not on the disk hides the whole disk: it is not taken for a SpartaDOS disk. -/
theorem C91_refuted_damaged {L : Libs} {b : Bytes} {m : SImg} {d : SDirent} (p : PlainDisk L m.hdr b) (hk : ¬ KbootLike m.hdr b) (u : ShownUpTo b m d)
    (hi : ¬ d.info.Sane m.hdr) : ∀ m' segs t, detect L b ≠ .ok (.sparta m' segs, t) := by
  obtain ⟨A, C, fs, hfile, hA⟩ := u.before
  have hsane : d.isSane = false := by
    have := sane_iff (C78_sane u.opens d (by rw [hfile]; simp))
    cases h : d.isSane with
    | false => rfl
    | true => exact absurd (this.mp h) hi
  have h1 := p.sectorSize
  have hp := kbootParser_eq p.opens (by omega) p.sectors p.usual
  rw [if_neg hk] at hp
  have htry : tryParsers true b atrParsers = tryParsers true b [atariParser, bootParser, diskParser] := by
    unfold atrParsers
    rw [try_step hp, try_step (spartaParser_error u.opens p.usual (segments_error u (entrySeg_insane hsane)))]
  intro m' segs t ht
  cases hr : tryParsers true b atrParsers with
  | error e => rw [detect_atr_error p.plain hr] at ht; cases ht
  | ok o =>
    rw [htry] at hr
    obtain ⟨x, rfl, hx⟩ := rest_not_sparta p.opens (by have := p.sectors; omega) p.usual hr
    obtain ⟨t', -, e⟩ := detect_atr p.plain p.size (htry.trans hr)
    rw [e] at ht
    cases ht
    exact hx _ _ rfl

/-! ### disks -/

/-- the sectors of `spartaSec` with another directory sector -/
def spartaSecD (dir : Bytes) (s : Nat) : Bytes := if s = 4 then dir else spartaSec s

/-- a disk whose first sector is that of `spartaSec` -/
theorem sparta_facts {f : Nat → Bytes} (hlen : ∀ s, (f s).length = 128) (f0 : f 0 = spartaSec 0) : ∃ b : Bytes,
    b.length = 92160 ∧ openHeader b = .ok xfdHeader ∧ SpartaLike xfdHeader b ∧
    bootWord xfdHeader b 9 = 4 ∧ bootWord xfdHeader b 16 = 3 ∧ bootByte xfdHeader b 15 = 1 ∧ bootByte xfdHeader b 1 = 3 ∧
    ∀ s, 1 ≤ s → s ≤ 720 → sectorBytes xfdHeader b s = f (s - 1) := by
  obtain ⟨b, hb⟩ : ∃ b, b = (List.range 720).flatMap f := ⟨_, rfl⟩
  have hl : b.length = 92160 := by
    rw [hb, flatMap128_length hlen, List.length_range]
  have hs : ∀ s, 1 ≤ s → s ≤ 720 → sectorBytes xfdHeader b s = f (s - 1) := fun s h1 h2 => by
    rw [xfd_sectorBytes h1 h2, hb]; exact flatMap128_slice hlen (by omega)
  have h0 : slice b 0 128 = spartaSec 0 := by rw [hb, ← f0]; exact flatMap128_slice (s := 0) hlen (by omega)
  clear hb
  have ho : openHeader b = .ok xfdHeader := by
    refine openHeader_xfd hl ?_
    have : slice b 0 16 = slice (slice b 0 128) 0 16 := by rw [slice_slice]; rfl
    rw [this, h0]; decide +kernel
  have hbyte : ∀ i, i < 128 → bootByte xfdHeader b i = ((spartaSec 0).getD i 0).toNat := by
    intro i hi
    rw [← h0]
    unfold bootByte
    rw [getD_slice (by omega)]
    rfl
  refine ⟨b, hl, ho, ?_, ?_, ?_, ?_, ?_, hs⟩
  · unfold SpartaLike bootWord
    rw [hbyte 11 (by omega), hbyte (11 + 1) (by omega), hbyte 18 (by omega), hbyte (18 + 1) (by omega), hbyte 16 (by omega), hbyte (16 + 1) (by omega),
      hbyte 9 (by omega), hbyte (9 + 1) (by omega), hbyte 32 (by omega), hbyte 31 (by omega)]
    decide +kernel
  · unfold bootWord
    rw [hbyte 9 (by omega), hbyte (9 + 1) (by omega)]
    decide +kernel
  · unfold bootWord
    rw [hbyte 16 (by omega), hbyte (16 + 1) (by omega)]
    decide +kernel
  · rw [hbyte 15 (by omega)]; decide +kernel
  · rw [hbyte 1 (by omega)]; decide +kernel

theorem spartaD_facts {dir : Bytes} (hd : dir.length = 128) : ∃ b : Bytes, b.length = 92160 ∧ openHeader b = .ok xfdHeader ∧ SpartaLike xfdHeader b ∧
    bootWord xfdHeader b 9 = 4 ∧ bootWord xfdHeader b 16 = 3 ∧ bootByte xfdHeader b 15 = 1 ∧ bootByte xfdHeader b 1 = 3 ∧
    MapOf xfdHeader b 4 ([5] ++ 0 :: List.replicate 60 0) ∧ ∀ s, 1 ≤ s → s ≤ 720 → sectorBytes xfdHeader b s = spartaSecD dir (s - 1) := by
  obtain ⟨b, a1, a2, a3, a4, a5, a6, a7, hs⟩ := sparta_facts (f := spartaSecD dir) (by
    intro s
    unfold spartaSecD
    split
    · exact hd
    · exact spartaSec_length s) rfl
  exact ⟨b, a1, a2, a3, a4, a5, a6, a7,
    mapOf_one (by decide) ((hs 4 (by omega) (by omega)).trans (show spartaSecD dir 3 = spartaSec 3 from rfl)) (by decide +kernel) (by decide +kernel), hs⟩

/-- a disk whose boot sector says that the two sectors of the bitmap begin with sector 1: other bytes than those of sectors 1 and 2 are shown -/
example : ∃ b, openHeader b = .ok xfdHeader ∧ SectorsOf xfdHeader (bitmapSectors xfdHeader b) ∧ bitmapSectors xfdHeader b = [1, 2] ∧
    spartaVtocSegs xfdHeader b ≠ .ok [⟨.bitmap, (bitmapSectors xfdHeader b).flatMap (sectorBytes xfdHeader b)⟩] := by
  obtain ⟨f, hf⟩ : ∃ f : Nat → Bytes, f = fun s => if s = 0 then sec128 (List.replicate 15 0 ++ [2, 1, 0]) else List.replicate 128 0 := ⟨_, rfl⟩
  have f0 : f 0 = sec128 (List.replicate 15 0 ++ [2, 1, 0]) := by rw [hf]; rfl
  have f1 : f 1 = List.replicate 128 0 := by rw [hf]; rfl
  have hlen : ∀ s, (f s).length = 128 := by
    intro s
    rw [hf]
    simp only
    split
    · decide +kernel
    · exact List.length_replicate
  obtain ⟨b, hl, ho, hs⟩ := xfd_of hlen (by rw [f0]; decide +kernel)
  have h1 := hs 1 (by omega) (by omega)
  have h2 := hs 2 (by omega) (by omega)
  have e1 := xfd_sectorBytes (b := b) (s := 1) (by omega) (by omega)
  have e2 := xfd_sectorBytes (b := b) (s := 2) (by omega) (by omega)
  rw [h1] at e1
  rw [h2] at e2
  have hbyte : ∀ i, i < 128 → bootByte xfdHeader b i = ((f 0).getD i 0).toNat := by
    intro i hi
    rw [show f 0 = f (1 - 1) from rfl, e1]
    unfold bootByte
    rw [getD_slice (by omega)]
    rfl
  have h15 : bootByte xfdHeader b 15 = 0 + 2 := by rw [hbyte 15 (by omega), f0]; decide +kernel
  have h16 : bootWord xfdHeader b 16 = 1 := by
    unfold bootWord
    rw [hbyte 16 (by omega), hbyte (16 + 1) (by omega), f0]; decide +kernel
  have hb : bitmapSectors xfdHeader b = [1, 2] := by unfold bitmapSectors; rw [h15, h16]; rfl
  refine ⟨b, ho, by rw [hb]; unfold SectorsOf; decide, hb, ?_⟩
  rw [C91_refuted_bitmap (openHeader_geom ho) (by decide) rfl rfl h16 h15 (by decide), hb]
  intro h
  have h := (List.cons.inj (Except.ok.inj h)).1
  have h := congrArg (fun x => x.getD 15 0) (ISeg.mk.inj h).2
  simp only [List.flatMap_cons, List.flatMap_nil, List.append_nil] at h
  rw [h1, h2] at h
  have l : (slice b xfdHeader.sectorSize (xfdHeader.sectorSize + (0 + 2) * xfdHeader.sectorSize)).getD 15 0 = (f (2 - 1)).getD 15 0 := by
    rw [e2, getD_slice (by decide), getD_slice (by decide)]
    rfl
  rw [l, show f (2 - 1) = f 1 from rfl, show f (1 - 1) = f 0 from rfl, f0, f1] at h
  revert h
  decide +kernel

/-- a directory with the file `A` and an entry without a map -/
def spartaDirZ : Bytes := sec128 (
    [0x28, 0, 0, 69, 0, 0] ++ List.replicate 11 0x4d ++ List.replicate 6 0 ++
    [0x08, 6, 0, 5, 0, 0, 0x41] ++ List.replicate 10 0x20 ++ List.replicate 6 0)

/-- a directory with the file `A` only, and a file with a map that is not on the disk -/
def spartaDirA : Bytes := sec128 (
    [0x28, 0, 0, 69, 0, 0] ++ List.replicate 11 0x4d ++ List.replicate 6 0 ++
    [0x08, 6, 0, 5, 0, 0, 0x41] ++ List.replicate 10 0x20 ++ List.replicate 6 0 ++
    [0x10, 0, 9, 5, 0, 0, 0x45] ++ List.replicate 10 0x20 ++ List.replicate 6 0)

def infoA : SInfo := ⟨[0x41], [], 5, 6, false, true, false, false, false, [0, 0, 0, 0, 0, 0]⟩

theorem shown_A {dir : Bytes} {b : Bytes} (hs : ∀ s, 1 ≤ s → s ≤ 720 → sectorBytes xfdHeader b s = spartaSecD dir (s - 1)) :
    SpartaShown xfdHeader b infoA ⟨.file [0x41], [1, 2, 3, 4, 5]⟩ := by
  have hM : MapOf xfdHeader b 6 ([7] ++ 0 :: List.replicate 60 0) :=
    mapOf_one (by decide) ((hs 6 (by omega) (by omega)).trans (show spartaSecD dir 5 = spartaSec 5 from rfl)) (by decide +kernel) (by decide +kernel)
  have := SpartaShown.file (i := infoA) hM (fun s h => by rw [List.mem_singleton.mp h]; decide) (by simp) (by decide)
  rw [List.flatMap_cons, List.flatMap_nil, List.append_nil, hs 7 (by omega) (by omega)] at this
  exact this

theorem open_hdr {b : Bytes} {h : AHeader} {m : SImg} (ho : openHeader b = .ok h) (hm : SImg.open b = .ok m) : m.hdr = h := by
  have := (open_sparta hm).1
  rw [ho] at this
  exact (Except.ok.inj this).symm

/-- a disk with a good file and a deleted one whose map is lost: both are shown, the second as the whole image -/
example : ∃ (m : SImg) (segs : List ISeg), SImg.open m.bytes = .ok m ∧ m.segments = .ok segs ∧
    ⟨.file [0x41], [1, 2, 3, 4, 5]⟩ ∈ segs ∧ ⟨.fileError [0x45], m.bytes⟩ ∈ segs ∧ segs.length = 9 := by
  obtain ⟨b, hl, ho, hlike, h9, h16, h15, h1, hM, hs⟩ := spartaD_facts (dir := spartaDirA) (by decide +kernel)
  obtain ⟨m, hm, hmb, hi⟩ := (C78_opens ho (by decide) [infoA, ⟨[0x45], [], 5, 0x900, false, false, true, false, false, [0, 0, 0, 0, 0, 0]⟩]).mpr ⟨hlike, by
    rw [h9]
    refine ⟨_, hM, .inr ⟨5, [], _, rfl, by decide, ?_, ?_⟩⟩
    · rw [hs 5 (by omega) (by omega)]; decide +kernel
    · simp only
      rw [List.flatMap_cons, List.flatMap_nil, List.append_nil, hs 5 (by omega) (by omega)]
      decide +kernel⟩
  have hh := open_hdr ho hm
  have hbm : bitmapSectors xfdHeader b = [3] := by unfold bitmapSectors; rw [h16, h15]; rfl
  refine ⟨m, _, by rw [hmb]; exact hm, (C91_segments hm (by rw [hh]; decide) (by rw [hh]; unfold BitmapPlaced; rw [h16]; exact .inr (.inr (by decide))) _).mpr
    ⟨_, _, by rw [hh]; exact ⟨5, [], _, by rw [h9]; exact hM, by intro s h; rw [List.mem_singleton.mp h]; decide, rfl⟩,
      by rw [hh, hbm]; intro s h; rw [List.mem_singleton.mp h]; decide,
      by rw [hi, hh]
         exact .cons (fun _ => by decide) (shown_A hs) (.cons nofun (.noMap (.here (by decide))) .nil), rfl⟩, ?_, ?_, ?_⟩
  · simp
  · rw [hmb]; simp [SInfo.fullName]
  · rw [hh]; simp [spartaFront, h1]

/-- a disk with a good file and an entry of zeros: nothing is shown -/
example : ∃ m : SImg, SImg.open m.bytes = .ok m ∧ m.files.length = 2 ∧ m.segments = .error .typeError := by
  obtain ⟨b, hl, ho, hlike, h9, h16, h15, h1, hM, hs⟩ := spartaD_facts (dir := spartaDirZ) (by decide +kernel)
  obtain ⟨m, hm, hmb, hi⟩ := (C78_opens ho (by decide) [infoA, ⟨[], [], 0, 0, false, false, false, false, false, [0, 0, 0, 0, 0, 0]⟩]).mpr ⟨hlike, by
    rw [h9]
    refine ⟨_, hM, .inr ⟨5, [], _, rfl, by decide, ?_, ?_⟩⟩
    · rw [hs 5 (by omega) (by omega)]; decide +kernel
    · simp only
      rw [List.flatMap_cons, List.flatMap_nil, List.append_nil, hs 5 (by omega) (by omega)]
      decide +kernel⟩
  have hh := open_hdr ho hm
  have hbm : bitmapSectors xfdHeader b = [3] := by unfold bitmapSectors; rw [h16, h15]; rfl
  refine ⟨m, by rw [hmb]; exact hm, by rw [← List.length_map (f := SDirent.info), hi]; rfl, ?_⟩
  match hf : m.files with
  | [] => rw [hf] at hi; cases hi
  | [_] => rw [hf] at hi; exact absurd (congrArg List.length hi) (by simp)
  | a :: d :: C =>
    rw [hf, List.map_cons, List.map_cons] at hi
    have ha := (List.cons.inj hi).1
    have hd := (List.cons.inj (List.cons.inj hi).2).1
    have hsane := C78_sane hm d (by rw [hf]; simp)
    rw [show d.inUse = false from congrArg SInfo.inUse hd] at hsane
    refine segments_error (b := b) (d := d) ⟨hm, by rw [hh]; decide, by rw [hh]; unfold BitmapPlaced; rw [h16]; exact .inr (.inr (by decide)),
      by rw [hh, hbm]; intro s h; rw [List.mem_singleton.mp h]; decide,
      by rw [hh]; exact ⟨_, 5, [], _, by rw [h9]; exact hM, by intro s h; rw [List.mem_singleton.mp h]; decide, rfl⟩,
      [a], C, _, hf, by rw [hh, List.map_cons, ha]; exact .cons (fun _ => by decide) (shown_A hs) .nil⟩ (entrySeg_zero hsane (congrArg SInfo.start hd))

/-- a disk whose root directory has a map of zeros: it is read, without files, and cannot be shown -/
example : ∃ m : SImg, SImg.open m.bytes = .ok m ∧ m.files = [] ∧ m.segments = .error .attributeError := by
  obtain ⟨b, hl, ho, hlike, h9, h16, h15, h1, hs⟩ := sparta_facts (f := fun s => if s = 3 then List.replicate 128 0 else spartaSec s) (by
    intro s
    split
    · exact List.length_replicate
    · exact spartaSec_length s) rfl
  have hM : MapOf xfdHeader b 4 (0 :: List.replicate 61 0) :=
    mapOf_one (by decide) (hs 4 (by omega) (by omega)) (by decide +kernel) (by decide +kernel)
  obtain ⟨m, hm, hmb, hi⟩ := (C78_opens ho (by decide) []).mpr ⟨hlike, _, by rw [h9]; exact hM, .inl ⟨_, rfl, rfl⟩⟩
  have hh := open_hdr ho hm
  have hbm : bitmapSectors xfdHeader b = [3] := by unfold bitmapSectors; rw [h16, h15]; rfl
  exact ⟨m, by rw [hmb]; exact hm, List.map_eq_nil_iff.mp hi, segments_no_root hm (by rw [hh]; decide)
    (by rw [hh]; unfold BitmapPlaced; rw [h16]; exact .inr (.inr (by decide))) (by rw [hh, hbm]; intro s h; rw [List.mem_singleton.mp h]; decide)
    (by rw [hh, h9]; exact hM)⟩

end Atr
