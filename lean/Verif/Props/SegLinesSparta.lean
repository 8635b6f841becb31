import Verif.Props.SegLinesMore
import Verif.Props.SpartaShown
/-!
# C99: what `segments` prints for SpartaDOS disks, MAME archives and ROM images
-/
namespace Atr

/-! ### reading the lines -/

theorem noLast_text {p : Char → Bool} {t u : List Char} (h : ∃ v c, u = v ++ [c] ∧ p c = false) : NoLast p (t ++ u) := by
  obtain ⟨v, c, rfl, hc⟩ := h
  rw [← List.append_assoc]
  exact noLast_snoc hc

theorem readStamp_ok (l : Bytes) (hl : l.length = 6) {t : List Char} (ht : NoLast Char.isDigit t) : readStamp (t ++ stampText l) = some (l.map UInt8.toNat, t) := by
  match l, hl with
  | [a, b, c, d, e, f], _ =>
    unfold readStamp stampText
    simp only [← List.append_assoc]
    rw [lastDec_pctD _ (noLast_snoc (by decide))]
    simp only [Option.bind_eq_bind, Option.bind_some]
    rw [show ":".toList = [':'] from rfl, show " ".toList = [' '] from rfl, show "/".toList = ['/'] from rfl, endsIn_append]
    simp only [Option.bind_some]
    rw [lastDec_pctD _ (noLast_snoc (by decide))]
    simp only [Option.bind_some]
    rw [endsIn_append]
    simp only [Option.bind_some]
    rw [lastDec_pctD _ (noLast_snoc (by decide))]
    simp only [Option.bind_some]
    rw [endsIn_append]
    simp only [Option.bind_some]
    rw [lastDec_pctD _ (noLast_snoc (by decide))]
    simp only [Option.bind_some]
    rw [endsIn_append]
    simp only [Option.bind_some]
    rw [lastDec_pctD _ (noLast_snoc (by decide))]
    simp only [Option.bind_some]
    rw [endsIn_append]
    simp only [Option.bind_some]
    rw [lastDec_pctD _ ht]
    rfl

/-- the line of a file -/
theorem readSpartaLine_file (name : List Char) (length map n : Nat) (l : Bytes) (hl : l.length = 6) :
    readSpartaLine (LSeg.plain (name ++ " ".toList ++ pctD length ++ "@".toList ++ pctD map ++ " ".toList ++ stampText l) 0 n).line =
      some (.file name length map (l.map UInt8.toNat) n) := by
  have : readSpartaFile (LSeg.plain (name ++ " ".toList ++ pctD length ++ "@".toList ++ pctD map ++ " ".toList ++ stampText l) 0 n).line =
      some (.file name length map (l.map UInt8.toNat) n) := by
    unfold readSpartaFile LSeg.line
    simp only
    rw [if_neg (by decide), List.append_nil, show ∀ x : List Char, x ++ " bytes".toList ++ ")".toList = x ++ " bytes)".toList by intro x; simp, endsIn_append]
    simp only [Option.bind_eq_bind, Option.bind_some]
    rw [lastHex_pctX 0 n (noLast_text (u := " ($".toList) ⟨" (".toList, '$', rfl, by decide⟩)]
    simp only [Option.bind_some]
    rw [endsIn_append]
    simp only [Option.bind_some]
    rw [readStamp_ok l hl (noLast_text (u := " ".toList) ⟨[], ' ', rfl, by decide⟩)]
    simp only [Option.bind_some]
    rw [endsIn_append]
    simp only [Option.bind_some]
    rw [lastDec_pctD _ (noLast_text (u := "@".toList) ⟨[], '@', rfl, by decide⟩)]
    simp only [Option.bind_some]
    rw [endsIn_append]
    simp only [Option.bind_some]
    rw [lastDec_pctD _ (noLast_text (u := " ".toList) ⟨[], ' ', rfl, by decide⟩)]
    simp only [Option.bind_some]
    rw [endsIn_append]
    rfl
  unfold readSpartaLine
  rw [this]
  rfl

theorem stampText_end (l : Bytes) (hl : l.length = 6) : ∃ t c, stampText l = t ++ [c] ∧ c.isDigit = true := by
  match l, hl with
  | [a, b, c, d, e, f], _ =>
    obtain ⟨r, x, h1, h2⟩ := snoc_of (digits_isDigit f.toNat) Nat.toDigits_ne_nil
    refine ⟨pctD a.toNat ++ ['/'] ++ pctD b.toNat ++ ['/'] ++ pctD c.toNat ++ [' '] ++ pctD d.toNat ++ [':'] ++ pctD e.toNat ++ [':'] ++ r, x, ?_, h2⟩
    unfold stampText
    simp only
    rw [show pctD (f.toNat : Int) = Nat.toDigits 10 f.toNat from rfl, h1, ← List.append_assoc]

/-- the line of a file without bytes -/
theorem readSpartaLine_nothing (name : List Char) (l : Bytes) (hl : l.length = 6) :
    readSpartaLine (LSeg.empty name (stampText l)).line = some (.nothing name (l.map UInt8.toNat)) := by
  obtain ⟨u, c, h1, h2⟩ := stampText_end l hl
  have h : (LSeg.empty name (stampText l)).line = name ++ " (empty file) ".toList ++ stampText l := by
    unfold LSeg.line
    simp only
    rw [if_neg (by rw [h1]; simp)]
    simp
  rw [h]
  unfold readSpartaLine
  have : readSpartaFile (name ++ " (empty file) ".toList ++ stampText l) = none := by
    unfold readSpartaFile
    rw [h1, ← List.append_assoc, show " bytes)".toList = " bytes".toList ++ [')'] from rfl,
      endsIn_differ _ _ (q := [')']) (q' := [c]) rfl (fun h => by injection h with h _; rw [← h] at h2; exact absurd h2 (by decide))]
    rfl
  rw [this, Option.none_or]
  unfold readSpartaNothing
  rw [readStamp_ok l hl (noLast_text (u := " (empty file) ".toList) ⟨" (empty file)".toList, ' ', rfl, by decide⟩)]
  simp only [Option.bind_eq_bind, Option.bind_some]
  rw [endsIn_append]
  rfl

/-! ### one file -/

/-- What the line of a file of a SpartaDOS directory is: with its length, first map sector, date and time, and with the number of bytes that its sectors hold of it; as empty if it has
no sectors or no length; as empty and with the refusal, if a sector or map sector is not on the disk. -/
inductive SpartaRow (refusal : List Char) (h : AHeader) (b : Bytes) (i : SInfo) : List Char → Prop
  | file {P R : List Nat} {t : List Char} : MapOf h b i.start (P ++ 0 :: R) → SectorsOf h P → P ≠ [] → 0 < i.length →
      readSpartaLine t = some (.file (chars i.fullName) i.length.toNat i.start (i.stamp.map UInt8.toNat) (min i.length.toNat (P.flatMap (sectorBytes h b)).length)) →
      SpartaRow refusal h b i t
  | empty {P R : List Nat} {t : List Char} : MapOf h b i.start (P ++ 0 :: R) → SectorsOf h P → (P = [] ∨ i.length ≤ 0) →
      readSpartaLine t = some (.nothing (chars i.fullName) (i.stamp.map UInt8.toNat)) → SpartaRow refusal h b i t
  | noMap : MapBreaks h b i.start → SpartaRow refusal h b i (chars i.fullName ++ " (empty file) ".toList ++ refusal)
  | noSector {P R : List Nat} {s : Nat} : MapOf h b i.start (P ++ s :: R) → SectorsOf h P → h.maxSectors < s →
      SpartaRow refusal h b i (chars i.fullName ++ " (empty file) ".toList ++ refusal)

theorem fileSegment_map {h : AHeader} {b : Bytes} (g : h.Geom b.length) {d : SDirent} (hd : d.isSane = true) {P R : List Nat}
    (hM : MapOf h b d.startingSector (P ++ 0 :: R)) (hP : SectorsOf h P) : d.fileSegment h b =
      .ok (if (P.flatMap (sectorBytes h b)).take d.length.toNat = [] then .empty (latin1 d.filename) (stampText d.stamp)
        else .plain (latin1 d.filename ++ " ".toList ++ pctD d.length ++ "@".toList ++ pctD d.startingSector ++ " ".toList ++ stampText d.stamp) 0
          ((P.flatMap (sectorBytes h b)).take d.length.toNat).length) := by
  unfold SDirent.fileSegment
  rw [hd, (spartaMap_ok_iff g _ _).mpr ⟨hM.start_ne (by simp), hM⟩]
  obtain ⟨l, l1, l2, l3⟩ := spartaRead_terminated g P R d.length hP
  simp only [Bool.not_true, Bool.false_eq_true, if_false]
  rw [l1]
  simp only
  rw [gather_spartaOrder b l l2, l3]
  by_cases hn : (P.flatMap (sectorBytes h b)).take d.length.toNat = []
  · rw [if_pos hn, if_pos ((spartaOrder_nil l2).mpr (by rw [l3]; exact hn))]
  · rw [if_neg hn, if_neg (fun hh => hn (by rw [← l3]; exact (spartaOrder_nil l2).mp hh))]

theorem take_ne {h : AHeader} {b : Bytes} (g : h.Geom b.length) {P : List Nat} (hP : SectorsOf h P) (hne : P ≠ []) {n : Nat} (hn : 0 < n) :
    (P.flatMap (sectorBytes h b)).take n ≠ [] := by
  obtain ⟨t, P, rfl⟩ := List.exists_cons_of_ne_nil hne
  have h1 := hP t (by simp)
  have := sectorBytes_pos (b := b) g h1.1 h1.2
  intro hh
  rw [List.take_eq_nil_iff] at hh
  rcases hh with hh | hh
  · omega
  · rw [List.flatMap_cons, List.append_eq_nil_iff] at hh; exact this hh.1

theorem sparta_row {h : AHeader} {b : Bytes} (g : h.Geom b.length) {d : SDirent} (hd : d.isSane = true) (hl : d.stamp.length = 6) {say : Err → Text}
    (hsay : say .byteNotInFile ≠ []) {x : ISeg} (hx : SpartaShown h b d.info x) :
    ∃ s, d.shown say h b = .ok s ∧ SpartaRow (say .byteNotInFile) h b d.info s.line := by
  have bad : d.fileSegment h b = .error .byteNotInFile → d.shown say h b = .ok (.empty (latin1 d.filename) (say .byteNotInFile)) ∧
      (LSeg.empty (latin1 d.filename) (say .byteNotInFile)).line = chars d.info.fullName ++ " (empty file) ".toList ++ say .byteNotInFile := by
    intro hf
    refine ⟨?_, ?_⟩
    · unfold SDirent.shown
      rw [hf]
      simp only
      rw [if_pos (show Err.isInvalidFile .byteNotInFile = true from rfl)]
    · unfold LSeg.line
      simp only
      rw [if_neg hsay, SDirent.filename_eq]
      simp [latin1, chars]
  cases hx with
  | @file P R hM hP hne hpos =>
    have hp : 0 < d.length := hpos
    have hn := take_ne (b := b) g hP hne (n := d.length.toNat) (by omega)
    refine ⟨_, by unfold SDirent.shown; rw [fileSegment_map g hd hM hP, if_neg hn], .file hM hP hne hpos ?_⟩
    have := readSpartaLine_file (latin1 d.filename) d.length.toNat d.startingSector ((P.flatMap (sectorBytes h b)).take d.length.toNat).length d.stamp hl
    rw [Int.toNat_of_nonneg (by omega)] at this
    rw [this, List.length_take, SDirent.filename_eq]
    rfl
  | @empty P R hM hP he =>
    refine ⟨_, by
      unfold SDirent.shown
      rw [fileSegment_map g hd hM hP, if_pos (by
        rcases he with rfl | he
        · simp
        · have he : d.length ≤ 0 := he
          rw [show d.length.toNat = 0 by omega]; simp)], .empty hM hP he ?_⟩
    rw [readSpartaLine_nothing _ _ hl, SDirent.filename_eq]
    rfl
  | noMap hM =>
    obtain ⟨h1, h2⟩ := bad (by
      unfold SDirent.fileSegment
      rw [hd, show spartaMap h b d.startingSector = _ from (spartaMap_breaks_iff g _).mpr hM]
      rfl)
    exact ⟨_, h1, by rw [h2]; exact .noMap hM⟩
  | @noSector P R t hM hP ht =>
    obtain ⟨h1, h2⟩ := bad (by
      unfold SDirent.fileSegment
      rw [hd, (spartaMap_ok_iff g d.startingSector _).mpr ⟨hM.start_ne (by simp), hM⟩]
      simp only [Bool.not_true, Bool.false_eq_true, if_false]
      rw [spartaRead_bad g P R t _ hP ht])
    exact ⟨_, h1, by rw [h2]; exact .noSector hM hP ht⟩

/-! ### the disk -/

/-- the lines before the root directory -/
def spartaLines (h : AHeader) (b : Bytes) : List SegLine :=
  diskLines "Sparta DOS Disk Image".toList h b ++
  [.placed "Boot Header".toList (bootWord h b 2) (bootWord h b 2 + min 43 (sectorBytes h b 1).length : Nat) (min 43 (sectorBytes h b 1).length) 0] ++
  (if bootByte h b 1 > 0 then
    [.placed "Boot Header".toList (bootWord h b 2) (bootWord h b 2 + min 43 (sectorBytes h b 1).length : Nat) (min 43 (sectorBytes h b 1).length) 0,
     .placed "Boot Code".toList (bootWord h b 2 + 43 : Nat) (bootWord h b 2 + 43 + ((sectorBytes h b 1).length - 43) : Nat) ((sectorBytes h b 1).length - 43) 0]
   else []) ++
  [.sectors "Bitmap".toList (bootWord h b 16) (bootWord h b 16 + (bootByte h b 15 - 1))]

theorem spartaLines_ok {h : AHeader} {b dir : Bytes} (g : h.Geom b.length) (hm : 1 ≤ h.maxSectors) (hs : 33 ≤ h.sectorSize) {data : Bytes}
    (hd : h.getSectors b 1 1 = .ok data) :
    (container "Sparta DOS Disk Image".toList b :: ((spartaFront h b dir).take ((spartaFront h b dir).length - 1)).map
      (ISeg.shownSparta h (le16 (data.getD 2 0) (data.getD 3 0)) (le16 (data.getD 16 0) (data.getD 17 0)) (data.getD 15 0).toNat)).map (fun s => readSegLine s.line) =
      (spartaLines h b).map some := by
  obtain ⟨k, hp, hk, hl⟩ := getPos_first g hm
  have h1 := sectorBytes_eq (b := b) hp
  rw [getSectors_valid g (by omega) hm] at hd
  cases hd
  have hg : ∀ i, i < 18 → (sectorBytes h b 1).getD i 0 = b.getD (h.headerOffset + i) 0 := by
    intro i hi
    rw [h1]; exact getD_slice (by omega)
  have hnum : ((sectorBytes h b 1).getD 15 0).toNat = bootByte h b 15 := by rw [hg 15 (by omega)]; rfl
  have hfirst : le16 ((sectorBytes h b 1).getD 16 0) ((sectorBytes h b 1).getD 17 0) = bootWord h b 16 := by
    rw [hg 16 (by omega), hg 17 (by omega)]; rfl
  have haddr : le16 ((sectorBytes h b 1).getD 2 0) ((sectorBytes h b 1).getD 3 0) = bootWord h b 2 := by
    rw [hg 2 (by omega), hg 3 (by omega)]; rfl
  have hoff : (b.take h.headerOffset).length = h.headerOffset := by
    have := g.fit
    rw [List.length_take]; omega
  have hfmt : h.format ++ " Header".toList = if h.headerOffset = 16 then "ATR Header".toList else "XFD Header".toList := by
    unfold AHeader.format
    split <;> rfl
  rw [hnum, hfirst, haddr]
  unfold spartaFront spartaLines diskLines container
  by_cases hb : bootByte h b 1 > 0
  · simp only [if_pos hb]
    simp only [List.cons_append, List.nil_append, List.length_cons, List.length_nil, Nat.reduceAdd, Nat.reduceSub, List.take_succ_cons, List.take_zero,
      List.map_cons, List.map_nil, ISeg.shownSparta, readSegLine_plain, readSegLine_obj, readSegLine_sectors, hoff, hfmt, List.length_take, List.length_drop,
      Int.zero_add, g.label, Int.natCast_add]
    rw [show 1 + (h.maxSectors - 1) = h.maxSectors by omega]
  · simp only [if_neg hb]
    simp only [List.cons_append, List.nil_append, List.append_nil, List.length_cons, List.length_nil, Nat.reduceAdd, Nat.reduceSub, List.take_succ_cons, List.take_zero,
      List.map_cons, List.map_nil, ISeg.shownSparta, readSegLine_plain, readSegLine_obj, readSegLine_sectors, hoff, hfmt, List.length_take,
      Int.zero_add, g.label, Int.natCast_add]
    rw [show 1 + (h.maxSectors - 1) = h.maxSectors by omega]

/-- the entry of the root directory, in full -/
theorem sparta_root_info {h : AHeader} {b : Bytes} (g : h.Geom b.length) {root t : Nat} {M : List Nat} (hM : MapOf h b root (t :: M))
    (ht : 1 ≤ t ∧ t ≤ h.maxSectors) (h23 : 23 ≤ (sectorBytes h b t).length) : ∃ d : SDirent, spartaRootDirent h b root = .ok (some d) ∧ d.isSane = true ∧
      d.info = { sInfo (slice (sectorBytes h b t) 0 23) with start := root } := by
  have hroot : 1 ≤ root ∧ root ≤ h.maxSectors := by
    generalize he : t :: M = L at hM
    cases hM with
    | nil => cases he
    | cons hs _ => exact ⟨hs.1, hs.2.1⟩
  have hmap := (spartaMap_ok_iff g root _).mpr ⟨by omega, hM⟩
  obtain ⟨p, k, hp⟩ := AHeader.getPos_isOk g ht.1 ht.2
  have hsec := sectorBytes_eq (b := b) hp
  have hraw : h.getRawBytes b t = .ok (sectorBytes h b t, p, k) := by
    unfold AHeader.getRawBytes
    rw [hp, hsec]
  obtain ⟨d, e1, -, e3, -⟩ := C78_record g 0 (e := slice (sectorBytes h b t) 0 23) (by rw [length_slice]; omega)
  unfold spartaRootDirent
  rw [hmap]
  simp only
  rw [if_neg (by omega), hraw]
  simp only
  rw [e1]
  simp only
  refine ⟨_, rfl, ?_, ?_⟩
  · unfold SDirent.sanityCheck
    simp only
    split
    · rfl
    · exact (AHeader.sectorIsValid_iff g root).mpr hroot
  · rw [← e3]; rfl

theorem info_stamp {d : SDirent} {e : Bytes} (he : e.length = 23) (hi : d.info.stamp = (sInfo e).stamp) : d.stamp.length = 6 := by
  have : d.stamp = slice e 17 23 := hi
  rw [this, length_slice]
  omega

/-- **C99, SpartaDOS disks.** The file, all sectors, the boot sector taken apart, the sectors of the bitmap, the root directory with its own name and its number of bytes, and one line for
each of its entries (C78) in order. -/
theorem C99_sparta {b : Bytes} {m : SImg} (hm : SImg.open b = .ok m) (hs : 33 ≤ m.hdr.sectorSize) (h4 : BitmapPlaced m.hdr b) {segs : List ISeg}
    (hseg : m.segments = .ok segs) {say : Err → Text} (hsay : say .byteNotInFile ≠ []) :
    ∃ ls dir fs, m.shown say = .ok (ls ++ dir :: fs) ∧ ls.map (fun s => readSegLine s.line) = (spartaLines m.hdr b).map some ∧
      (∃ t P R i, MapOf m.hdr b (bootWord m.hdr b 9) (t :: P ++ 0 :: R) ∧ SectorsOf m.hdr (t :: P) ∧ i = sInfo (slice (sectorBytes m.hdr b t) 0 23) ∧
        (0 < i.length → readSegLine dir.line = some (.bytes (chars i.fullName) (min i.length.toNat ((t :: P).flatMap (sectorBytes m.hdr b)).length))) ∧
        (i.length ≤ 0 → readSpartaLine dir.line = some (.nothing (chars i.fullName) (i.stamp.map UInt8.toNat)))) ∧
      fs.length = m.files.length ∧
      ∀ (k : Nat) (d : SDirent), m.files[k]? = some d → ∃ s, fs[k]? = some s ∧ SpartaRow (say .byteNotInFile) m.hdr b d.info s.line := by
  obtain ⟨ho, hb⟩ := open_sparta hm
  have g := openHeader_geom ho
  obtain ⟨hroot, hmax, _⟩ := sparta_dir hm hs
  obtain ⟨dir, fs0, ⟨t, P, R, hM, hP, hdir⟩, hbit, hall, hsg⟩ := (C91_segments hm hs h4 segs).mp hseg
  have h23 : 23 ≤ (sectorBytes m.hdr b t).length := by
    obtain ⟨_, M, hM', hcase⟩ := (C78_opens ho hs (m.files.map SDirent.info)).mp ⟨m, hm, hb, rfl⟩
    rw [hM'.unique hM] at hcase
    rcases hcase with ⟨R', h1, _⟩ | ⟨t', P', R', h1, _, h2, _⟩
    · injection h1 with h1 _
      have := (hP t (by simp)).1
      omega
    · injection h1 with h1 _
      rw [h1]; exact h2
  obtain ⟨d, e1, e2, e3⟩ := sparta_root_info g (M := P ++ 0 :: R) hM (hP t (by simp)) h23
  have hst : d.startingSector = bootWord m.hdr b 9 := congrArg SInfo.start e3
  have hln : d.length = (sInfo (slice (sectorBytes m.hdr b t) 0 23)).length := congrArg SInfo.length e3
  have hfn : d.filename = (sInfo (slice (sectorBytes m.hdr b t) 0 23)).fullName := by rw [SDirent.filename_eq, e3]; rfl
  have hsp : d.stamp = (sInfo (slice (sectorBytes m.hdr b t) 0 23)).stamp := congrArg SInfo.stamp e3
  have hsl : d.stamp.length = 6 := info_stamp (e := slice (sectorBytes m.hdr b t) 0 23) (by rw [length_slice]; omega) hsp
  have hseg1 := fileSegment_map g e2 (P := t :: P) (R := R) (by rw [hst]; exact hM) hP
  -- the files
  have hrec := (sparta_open_records hm).2
  have hrows : ∀ (ds : List SDirent) (ss : List ISeg), (∀ d ∈ ds, d ∈ m.files) → AllShown m.hdr b (ds.map SDirent.info) ss →
      ∃ ls, shownAll (SDirent.shown say m.hdr b) ds = .ok ls ∧ ls.length = ds.length ∧
        ∀ (k : Nat) (d : SDirent), ds[k]? = some d → ∃ s, ls[k]? = some s ∧ SpartaRow (say .byteNotInFile) m.hdr b d.info s.line := by
    intro ds
    induction ds with
    | nil => intro ss _ _; exact ⟨[], rfl, rfl, fun k d hk => by cases hk⟩
    | cons d ds ih =>
      intro ss hmem hsh
      rw [List.map_cons] at hsh
      cases hsh with
      | @cons _ _ s ss' k1 k2 k3 =>
        have hd := hmem d List.mem_cons_self
        obtain ⟨e, he, hi⟩ := hrec d hd
        obtain ⟨x, x1, x2⟩ := sparta_row g ((sane_iff (C78_sane hm d hd)).mpr k1) (info_stamp he (congrArg SInfo.stamp hi)) hsay k2
        obtain ⟨ls, l1, l2, l3⟩ := ih ss' (fun d hd => hmem d (List.mem_cons_of_mem _ hd)) k3
        refine ⟨x :: ls, by rw [shownAll, x1, l1], by rw [List.length_cons, List.length_cons, l2], fun k d' hk => ?_⟩
        cases k with
        | zero => rw [List.getElem?_cons_zero] at hk ⊢; exact ⟨x, rfl, (Option.some.inj hk) ▸ x2⟩
        | succ k => rw [List.getElem?_cons_succ] at hk ⊢; exact l3 k d' hk
  obtain ⟨fs, f1, f2, f3⟩ := hrows m.files fs0 (fun _ h => h) hall
  have hfl : fs0.length = m.files.length := by
    have : ∀ (l : List SInfo) (ss : List ISeg), AllShown m.hdr b l ss → ss.length = l.length := by
      intro l ss h
      induction h with
      | nil => rfl
      | cons _ _ _ ih => rw [List.length_cons, List.length_cons, ih]
    rw [this _ _ hall, List.length_map]
  have hpos : 1 ≤ (spartaFront m.hdr b dir).length := by unfold spartaFront; simp
  have htake : (spartaFront m.hdr b dir ++ fs0).take ((spartaFront m.hdr b dir ++ fs0).length - m.files.length - 1) =
      (spartaFront m.hdr b dir).take ((spartaFront m.hdr b dir).length - 1) := by
    rw [List.length_append, hfl, Nat.add_sub_cancel, List.take_append_of_le_length (by omega)]
  have hdat := getSectors_valid (b := b) g (s := 1) (by omega) hmax
  unfold SImg.shown
  rw [hseg, hb, hroot, e1]
  simp only
  rw [hseg1]
  simp only
  rw [f1]
  simp only
  rw [hdat, hsg, htake]
  simp only
  refine ⟨_, _, fs, by rw [← List.cons_append], spartaLines_ok g hmax hs hdat, ⟨t, P, R, _, hM, hP, rfl, ?_, ?_⟩, f2, f3⟩
  · intro hp
    rw [← hln] at hp
    rw [if_neg (take_ne g hP (by simp) (by omega))]
    unfold LSeg.rename
    simp only
    rw [readSegLine_plain, List.length_take, hfn, hln]
    rfl
  · intro hp
    rw [← hln] at hp
    rw [show d.length.toNat = 0 by omega, List.take_zero, if_pos rfl]
    unfold LSeg.rename
    simp only
    rw [readSpartaLine_nothing _ _ hsl, hfn, hsp]
    rfl

theorem length_spartaLines (h : AHeader) (b : Bytes) : (spartaLines h b).length = if bootByte h b 1 > 0 then 7 else 5 := by
  unfold spartaLines diskLines
  by_cases hb : bootByte h b 1 > 0
  · rw [if_pos hb, if_pos hb]; rfl
  · rw [if_neg hb, if_neg hb]; rfl

/-- two lines as they are on the screen, and what they say -/
example : (LSeg.plain ("DRV.COM".toList ++ " ".toList ++ pctD 300 ++ "@".toList ++ pctD 27 ++ " ".toList ++ stampText [31, 12, 99, 23, 59, 58]) 0 300).line =
      "DRV.COM 300@27 31/12/99 23:59:58 ($12c bytes)".toList ∧
    readSpartaLine "DRV.COM 300@27 31/12/99 23:59:58 ($12c bytes)".toList = some (.file "DRV.COM".toList 300 27 [31, 12, 99, 23, 59, 58] 300) ∧
    readSpartaLine "1 2@3 (empty file) 1/2/3 4:5:6".toList = some (.nothing "1 2@3".toList [1, 2, 3, 4, 5, 6]) := by decide +kernel

/-- the disk of C91 with a good file and a deleted one whose map is lost: seven lines for the disk, one for the directory, one for each of them -/
example (say : Err → Text) (hsay : say .byteNotInFile ≠ []) : ∃ (m : SImg) (ls : List LSeg) (s : LSeg), SImg.open m.bytes = .ok m ∧ m.shown say = .ok ls ∧ ls.length = 10 ∧
    ls[9]? = some s ∧ s.line = "E (empty file) ".toList ++ say .byteNotInFile := by
  obtain ⟨b, hl, ho, hlike, h9, h16, h15, h1, hM, hs⟩ := spartaD_facts (dir := spartaDirA) (by decide +kernel)
  obtain ⟨m, hm, hmb, hi⟩ := (C78_opens ho (by decide) [infoA, ⟨[0x45], [], 5, 0x900, false, false, true, false, false, [0, 0, 0, 0, 0, 0]⟩]).mpr ⟨hlike, by
    rw [h9]
    refine ⟨_, hM, .inr ⟨5, [], _, rfl, by decide, ?_, ?_⟩⟩
    · rw [hs 5 (by omega) (by omega)]; decide +kernel
    · simp only
      rw [List.flatMap_cons, List.flatMap_nil, List.append_nil, hs 5 (by omega) (by omega)]
      decide +kernel⟩
  have hh := open_hdr ho hm
  have hbm : bitmapSectors xfdHeader b = [3] := by unfold bitmapSectors; rw [h16, h15]; rfl
  have h33 : 33 ≤ m.hdr.sectorSize := by rw [hh]; decide
  have hplace : BitmapPlaced m.hdr b := by rw [hh]; unfold BitmapPlaced; rw [h16]; exact .inr (.inr (by decide))
  have hseg := (C91_segments hm h33 hplace _).mpr
    ⟨_, _, by rw [hh]; exact ⟨5, [], _, by rw [h9]; exact hM, by intro s h; rw [List.mem_singleton.mp h]; decide, rfl⟩,
      by rw [hh, hbm]; intro s h; rw [List.mem_singleton.mp h]; decide,
      by rw [hi, hh]
         exact .cons (fun _ => by decide) (shown_A hs) (.cons nofun (.noMap (.here (by decide))) .nil), rfl⟩
  obtain ⟨ls, dir, fs, k1, k2, -, k3, k4⟩ := C99_sparta hm h33 hplace hseg hsay
  have hfl : m.files.length = 2 := by
    have := congrArg List.length hi
    rw [List.length_map] at this
    exact this
  have hll : ls.length = 7 := by
    have := congrArg List.length k2
    rw [List.length_map, List.length_map] at this
    rw [this, hh, length_spartaLines, h1]
    rfl
  obtain ⟨d, hd⟩ : ∃ d, m.files[1]? = some d := ⟨_, List.getElem?_eq_getElem (by omega)⟩
  have hdi : d.info = ⟨[0x45], [], 5, 0x900, false, false, true, false, false, [0, 0, 0, 0, 0, 0]⟩ := by
    have := congrArg (fun l => l[1]?) hi
    simp only [List.getElem?_map, hd] at this
    exact Option.some.inj this
  obtain ⟨s, hs1, hs2⟩ := k4 1 d hd
  refine ⟨m, _, s, by rw [hmb]; exact hm, k1, ?_, ?_, ?_⟩
  · rw [List.length_append, List.length_cons, hll, k3, hfl]
  · rw [List.getElem?_append_right (by omega), hll]
    exact hs1
  · rw [hdi, hh] at hs2
    have nomap : ∀ {M}, ¬ MapOf xfdHeader b 0x900 M := by
      intro M hc
      generalize h0 : (0x900 : Nat) = x at hc
      cases hc with
      | nil => cases h0
      | cons hs _ => have := hs.2.1; rw [← h0] at this; exact absurd this (by decide)
    generalize hx : s.line = x at hs2
    cases hs2 with
    | file h _ => exact absurd h nomap
    | empty h _ => exact absurd h nomap
    | noMap _ => rfl
    | noSector h _ => exact absurd h nomap

/-! ### MAME archives and ROM images -/

/-- **C99, MAME archives.** A line for the archive and one for each entry with its name, its size, and its place among the data of all entries, as address and as position. -/
theorem C99_mame (b : Bytes) (items : List ZipItem) (names : List Text) (hn : names.length = items.length) (hne : items ≠ [])
    (hsz : ∀ i ∈ items, i.data.length = i.fileSize) (h16 : ∀ i ∈ items, i.fileSize % 16 = 0) :
    ∃ data ranges r, openMame items = .ok (data, ranges) ∧
      (shownMame b data names ranges).map (fun s => readSegLine s.line) = some (.bytes "MAME ROM Zipfile".toList b.length) :: r ∧ r.length = items.length ∧
      ∀ (k : Nat) (n : Text) (i : ZipItem), names[k]? = some n → items[k]? = some i → ∃ start : Nat,
        r[k]? = some (some (.placed n start (start + i.data.length : Nat) i.data.length start)) ∧ slice data start (start + i.data.length) = i.data := by
  obtain ⟨data, ranges, h1, h2, h3, _⟩ := C54_mame items hne hsz h16
  have hl : ranges.length = items.length := by
    have := congrArg List.length h2
    rwa [List.length_map, List.length_map] at this
  refine ⟨data, ranges, _, h1, by unfold shownMame container; rw [List.map_cons, readSegLine_plain], ?_, ?_⟩
  · rw [List.length_map, List.length_zipWith, hn, hl, Nat.min_self]
  · intro k n i hk hi
    obtain ⟨r, hr⟩ : ∃ r, ranges[k]? = some r := by
      have := (List.getElem?_eq_some_iff.mp hi).1
      exact ⟨_, List.getElem?_eq_getElem (by omega)⟩
    have hd : slice data r.1 r.2 = i.data := by
      have := congrArg (fun l => l[k]?) h2
      simp only [List.getElem?_map, hr, hi, Option.map_some] at this
      exact Option.some.inj this
    have hb := h3 r (List.mem_of_getElem? hr)
    have hlen : i.data.length = r.2 - r.1 := by
      rw [← hd, length_slice]
      omega
    refine ⟨r.1, ?_, ?_⟩
    · rw [List.getElem?_map, List.getElem?_zipWith, hk, hr]
      simp only [Option.map_some]
      rw [readSegLine_obj, hd, Int.natCast_add]
    · rw [hlen, show r.1 + (r.2 - r.1) = r.2 by omega]
      exact hd

/-- **C99 is false for MAME archives.** The position shown is the one in the unpacked data, whatever the archive is: the second entry is shown behind the end of the file if the first one
unpacks to more bytes than the archive has. -/
theorem C99_refuted_mame (b : Bytes) (n1 n2 : Text) (i1 i2 : ZipItem) (h1 : i1.data.length = i1.fileSize) (h2 : i2.data.length = i2.fileSize) (h3 : i1.fileSize % 16 = 0)
    (h4 : i2.fileSize % 16 = 0) (hb : b.length < i1.data.length) : ∃ data ranges pos, openMame [i1, i2] = .ok (data, ranges) ∧ b.length < pos ∧
      ((shownMame b data [n1, n2] ranges).map (fun s => readSegLine s.line))[2]? = some (some (.placed n2 pos (pos + i2.data.length : Nat) i2.data.length pos)) := by
  refine ⟨i1.data ++ i2.data, [(0, i1.fileSize), (i1.fileSize, i1.fileSize + i2.fileSize)], i1.fileSize, ?_, by omega, ?_⟩
  · unfold openMame
    rw [if_neg (by simp [h3, h4]), if_neg (by simp)]
    simp
  · unfold shownMame container
    simp only [List.zipWith_cons_cons, List.zipWith_nil_left, List.map_cons, List.map_nil, List.getElem?_cons_succ, List.getElem?_cons_zero]
    rw [readSegLine_obj, length_slice, List.length_append, ← h1, ← h2]
    rw [show min (i1.data.length + i2.data.length) (i1.data.length + i2.data.length) - i1.data.length = i2.data.length by omega, Int.natCast_add]

/-- **C99, ROM images.** -/
theorem C99_rom (t : Mime) (b : Bytes) : (shownRom t b).map (fun s => readSegLine s.line) =
    [some (.bytes (romMenuName t) b.length), some (.placed "Main Bank".toList 0 b.length b.length 0)] := by
  unfold shownRom container
  simp only [List.map_cons, List.map_nil, readSegLine_plain, readSegLine_obj, Int.zero_add]

/-- **C99, the first line of a ROM image.** It speaks of the machine if the type is one of a machine. -/
theorem C99_rom_name (t : Mime) : ((textWords (romMenuName t)).contains "2600".toList = true ↔ t = .cart2600 ∨ t = .starpath) ∧
    ((textWords (romMenuName t)).contains "Starpath".toList = true ↔ t = .starpath) ∧
    ((textWords (romMenuName t)).contains "Vectrex".toList = true ↔ t = .vectrex) := by
  cases t <;> decide +kernel

example : ((shownMame [1, 2, 3] (List.replicate 16 1 ++ List.replicate 32 2) ["a.rom".toList, "b.rom".toList] [(0, 16), (16, 48)]).map LSeg.line) =
    ["MAME ROM Zipfile ($3 bytes)".toList, "a.rom $0000-$0010 ($0010 @ $0000)".toList, "b.rom $0010-$0030 ($0020 @ $0010)".toList] ∧
    (shownRom .vectrex [1, 2]).map LSeg.line = ["Vectrex Cartridge ($2 bytes)".toList, "Main Bank $0000-$0002 ($0002 @ $0000)".toList] := by decide +kernel

end Atr
