import Verif.Props.Verbose
import Verif.Props.SegLinesSparta
/-!
# C123: the long descriptions of the files of SpartaDOS disks
-/
namespace Atr

theorem flags_closedS : ∀ a1 a2 a4 a5 a6 : Bool,
    (flagsText [(a1, "OUT".toList), (a2, "DIR".toList), (a4, "IN_USE".toList), (a5, "DEL".toList), (a6, "LOCK".toList)]).all (· != ')') = true := by
  decide +kernel

theorem readVerboseNameS_ok (name : List Char) (length map : Nat) (d : SDirent) (l : Bytes) (hl : l.length = 6) :
    readVerboseNameS (name ++ " (".toList ++ pctD length ++ " bytes, sector map@".toList ++ pctD map ++ ") ".toList ++ d.extra ++ " ".toList ++ stampText l) =
      (readFlags d.extra).map fun f => (name, length, map, f, l.map UInt8.toNat) := by
  have hc : d.extra.all (· != ')') = true := flags_closedS ..
  generalize d.extra = x at hc ⊢
  unfold readVerboseNameS
  rw [readStamp_ok l hl (noLast_text (u := " ".toList) ⟨[], ' ', rfl, by decide⟩)]
  simp only [Option.bind_eq_bind, Option.bind_some]
  rw [endsIn_append]
  simp only [Option.bind_some]
  have e : name ++ " (".toList ++ pctD length ++ " bytes, sector map@".toList ++ pctD map ++ ") ".toList ++ x =
      (name ++ " (".toList ++ pctD length ++ " bytes, sector map@".toList ++ pctD map ++ [')']) ++ ([' '] ++ x) := by simp
  have h := takeWhile_stop (p := (· != ')')) (d := ([' '] ++ x).reverse)
    (t := (name ++ " (".toList ++ pctD length ++ " bytes, sector map@".toList ++ pctD map ++ [')']).reverse)
    (fun c hc' => by
      rcases List.mem_append.mp (List.mem_reverse.mp hc') with h | h
      · rw [List.mem_singleton.mp h]; rfl
      · exact List.all_eq_true.mp hc c h)
    (fun c hc => by
      rw [List.head?_reverse, List.getLast?_concat] at hc
      rw [← Option.some.inj hc]; rfl)
  rw [e, List.reverse_append, h.1, h.2, List.reverse_reverse, List.reverse_reverse, expect_append]
  simp only [Option.bind_some]
  cases readFlags x with
  | none => rfl
  | some f =>
    simp only [Option.bind_some, Option.map_some]
    rw [show ")".toList = [')'] from rfl, endsIn_append]
    simp only [Option.bind_some]
    rw [lastDec_pctD _ (noLast_text (u := " bytes, sector map@".toList) ⟨" bytes, sector map".toList, '@', rfl, by decide⟩)]
    simp only [Option.bind_some]
    rw [endsIn_append]
    simp only [Option.bind_some]
    rw [lastDec_pctD _ (noLast_text (u := " (".toList) ⟨[' '], '(', rfl, by decide⟩)]
    simp only [Option.bind_some]
    rw [endsIn_append]
    rfl

theorem stampText_quote (l : Bytes) (hl : l.length = 6) : stampText l ≠ [] ∧ '\'' ∉ stampText l := by
  obtain ⟨u, c, h, _⟩ := stampText_end l hl
  refine ⟨by rw [h]; simp, ?_⟩
  have hd : ∀ n : Nat, '\'' ∉ pctD (n : Int) := by
    intro n hc
    have := digits_isDigit n _ hc
    exact absurd this (by decide)
  match l, hl with
  | [a, b, c, d, e, f], _ =>
    unfold stampText
    simp only [List.mem_append, List.mem_singleton]
    intro hc
    rcases hc with (((((((((hc | hc) | hc) | hc) | hc) | hc) | hc) | hc) | hc) | hc) | hc
    all_goals first | exact hd _ hc | exact absurd hc (by decide)

theorem sparta_first {h : AHeader} {b : Bytes} (g : h.Geom b.length) {P R : List Nat} {t : Nat} {n : Int} (hn : 0 < n) (hP : SectorsOf h (t :: P)) :
    ∃ l p k idx, spartaRead h b (t :: P ++ 0 :: R) n = .ok l ∧ (∀ x ∈ l, x.1 + x.2.toNat ≤ b.length) ∧
      (l.flatMap fun x => slice b x.1 (x.1 + x.2.toNat)) = ((t :: P).flatMap (sectorBytes h b)).take n.toNat ∧
      h.getPos t = .ok (p, k) ∧ spartaOrder l = p :: idx := by
  obtain ⟨l, l1, l2, l3⟩ := spartaRead_terminated g (t :: P) R n hP
  have hs := hP t (by simp)
  obtain ⟨p, k, hp⟩ := AHeader.getPos_isOk g hs.1 hs.2
  have hk : 0 < k := by
    have h1 := sectorBytes_pos (b := b) g hs.1 hs.2
    rw [sectorBytes_eq hp] at h1
    have := List.length_pos_iff.mpr h1
    rw [length_slice] at this
    omega
  have l1' := l1
  rw [List.cons_append, spartaRead, if_neg (by omega)] at l1
  unfold AHeader.getRawBytes at l1
  rw [hp] at l1
  simp only at l1
  split at l1
  · exact nomatch l1
  · rename_i rest _
    injection l1 with l1
    obtain ⟨j, hj⟩ : ∃ j, (min n (k : Int)).toNat = j + 1 := ⟨(min n (k : Int)).toNat - 1, by omega⟩
    refine ⟨l, p, k, List.range' (p + 1) j ++ spartaOrder rest, l1', l2, l3, hp, ?_⟩
    rw [← l1]
    show List.range' p (min n (k : Int)).toNat ++ spartaOrder rest = _
    rw [hj, List.range'_succ]
    rfl

theorem sane_of_map {b : Bytes} {m : SImg} (hm : SImg.open b = .ok m) {d : SDirent} (hd : d ∈ m.files) {M : List Nat} (hM : MapOf m.hdr b d.startingSector M) (hne : M ≠ []) :
    d.isSane = true := by
  have h : 1 ≤ d.startingSector ∧ d.startingSector ≤ m.hdr.maxSectors := by
    generalize d.startingSector = x at hM
    cases hM with
    | nil => exact absurd rfl hne
    | cons hs _ => exact ⟨hs.1, hs.2.1⟩
  rw [C78_sane hm d hd]
  simp [h.1, h.2]

/-- **C123, files of SpartaDOS disks.** Every file with sectors and a length on a SpartaDOS disk is described with its name, its length, its first map sector, its flags, its
date and time, the number of bytes that are shown, and the position of the first of them, which is the start of its first sector. -/
theorem C123_sparta {b : Bytes} {m : SImg} (hm : SImg.open b = .ok m) (say : Err → Text) {d : SDirent} (hd : d ∈ m.files) {P R : List Nat} {t0 : Nat}
    (hM : MapOf m.hdr b d.startingSector (t0 :: P ++ 0 :: R)) (hP : SectorsOf m.hdr (t0 :: P)) (hlen : 0 < d.length) :
    ∃ s t vn flags pos k, d.verboseSeg say m.hdr b = .ok s ∧ s.info = .ok t ∧
      readVerbose t = some (.scattered vn (((t0 :: P).flatMap (sectorBytes m.hdr b)).take d.length.toNat).length pos) ∧
      readVerboseNameS vn = some (latin1 d.filename, d.length.toNat, d.startingSector, flags, d.stamp.map UInt8.toNat) ∧ readFlags d.extra = some flags ∧
      m.hdr.getPos t0 = .ok (pos, k) := by
  have hsane := sane_of_map hm hd hM (by simp)
  have g := openHeader_geom (open_sparta hm).1
  obtain ⟨e, he, hi⟩ := (sparta_open_records hm).2 d hd
  have hl := info_stamp he (congrArg SInfo.stamp hi)
  obtain ⟨l, p, k, idx, l1, l2, l3, l4, l5⟩ := sparta_first (b := b) g (R := R) hlen hP
  have hga := gather_spartaOrder b l l2
  have hall : (spartaOrder l).all (· < b.length) = true := by
    unfold gather at hga
    split at hga
    · assumption
    · cases hga
  have hcount : (spartaOrder l).length = (((t0 :: P).flatMap (sectorBytes m.hdr b)).take d.length.toNat).length := by
    unfold gather at hga
    rw [if_pos hall, l3] at hga
    rw [← Except.ok.inj hga, List.length_map]
  have hview : (SegView.whole b.length).indexed (spartaOrder l) = .ok (.order b.length (p :: idx)) := by
    unfold SegView.indexed
    simp only [hall, if_true]
    rw [l5]
    simp
  obtain ⟨flags, hfl⟩ : ∃ flags, readFlags d.extra = some flags := ⟨_, sparta_flags ..⟩
  have hne : latin1 d.filename ++ " (".toList ++ pctD d.length ++ " bytes, sector map@".toList ++ pctD d.startingSector ++ ") ".toList ++ d.extra ++ " ".toList ++
    stampText d.stamp ≠ [] := by simp
  refine ⟨⟨latin1 d.filename ++ " ".toList ++ pctD d.length ++ "@".toList ++ pctD d.startingSector ++ " ".toList ++ stampText d.stamp,
      latin1 d.filename ++ " (".toList ++ pctD d.length ++ " bytes, sector map@".toList ++ pctD d.startingSector ++ ") ".toList ++ d.extra ++ " ".toList ++ stampText d.stamp, [],
      .plain (.order b.length (p :: idx))⟩, _, _, flags, p, k, ?_, ?_, readVerbose_scattered
        (latin1 d.filename ++ " (".toList ++ pctD d.length ++ " bytes, sector map@".toList ++ pctD d.startingSector ++ ") ".toList ++ d.extra ++ " ".toList ++ stampText d.stamp) _ _, ?_, hfl, l4⟩
  · unfold SDirent.verboseSeg
    rw [hsane, (spartaMap_ok_iff g _ _).mpr ⟨hM.start_ne (by simp), hM⟩]
    simp only [Bool.not_true, Bool.false_eq_true, if_false]
    rw [l1]
    simp only
    rw [if_neg (by rw [l5]; simp), hview]
  · unfold VSeg.info VSeg.body VSeg.title
    simp only [if_neg hne, if_true]
    rw [← hcount, l5]
  · have := readVerboseNameS_ok (latin1 d.filename) d.length.toNat d.startingSector d d.stamp hl
    rw [hfl, Int.toNat_of_nonneg (by omega)] at this
    exact this

/-- **C123, empty files of SpartaDOS disks.** A file without sectors or without length is described as empty; its date and time stand where errors are shown. -/
theorem C123_sparta_empty {b : Bytes} {m : SImg} (hm : SImg.open b = .ok m) (say : Err → Text) {d : SDirent} (hd : d ∈ m.files) {P R : List Nat}
    (hM : MapOf m.hdr b d.startingSector (P ++ 0 :: R)) (hP : SectorsOf m.hdr P) (he : P = [] ∨ d.length ≤ 0) :
    ∃ s t u date, d.verboseSeg say m.hdr b = .ok s ∧ s.info = .ok t ∧ readError t = some (u, date) ∧ readVerbose u = some (.nothing (latin1 d.filename)) ∧
      readStamp date = some (d.stamp.map UInt8.toNat, []) := by
  have hsane := sane_of_map hm hd hM (by simp)
  have g := openHeader_geom (open_sparta hm).1
  obtain ⟨e, hle, hi⟩ := (sparta_open_records hm).2 d hd
  have hl := info_stamp hle (congrArg SInfo.stamp hi)
  obtain ⟨l, l1, l2, l3⟩ := spartaRead_terminated g P R d.length hP
  have hnil : spartaOrder l = [] := by
    rw [spartaOrder_nil l2, l3]
    rcases he with rfl | he
    · simp
    · rw [show d.length.toNat = 0 by omega]; simp
  obtain ⟨hs1, hs2⟩ := stampText_quote d.stamp hl
  have herr := C123_error (name := latin1 d.filename) (verbose := []) (kind := .empty) hs1 hs2
  refine ⟨⟨latin1 d.filename, [], stampText d.stamp, .empty⟩, _, latin1 d.filename ++ " (empty file)".toList, stampText d.stamp, ?_, rfl, ?_, readVerbose_nothing _, ?_⟩
  · unfold SDirent.verboseSeg
    rw [hsane, (spartaMap_ok_iff g _ _).mpr ⟨hM.start_ne (by simp), hM⟩]
    simp only [Bool.not_true, Bool.false_eq_true, if_false]
    rw [l1]
    simp only
    rw [if_pos hnil]
  · exact herr
  · have := readStamp_ok d.stamp hl (t := []) (by intro c hc; cases hc)
    exact this

/-- some names -/
example : readVerboseNameS "DRV.COM (300 bytes, sector map@27) flags=[IN_USE, LOCK] 31/12/99 23:59:58".toList =
    some ("DRV.COM".toList, 300, 27, ["IN_USE".toList, "LOCK".toList], [31, 12, 99, 23, 59, 58]) := by decide +kernel

/-- the file `A` of 5 bytes on the disk of C91: its map is in sector 6, its only sector is number 7 -/
example (say : Err → Text) : ∃ (m : SImg) (d : SDirent) (s : VSeg) (t vn : Text) (flags : List Text), SImg.open m.bytes = .ok m ∧ d ∈ m.files ∧ d.verboseSeg say m.hdr m.bytes = .ok s ∧
    s.info = .ok t ∧ readVerbose t = some (.scattered vn 5 768) ∧ readVerboseNameS vn = some ("A".toList, 5, 6, flags, [0, 0, 0, 0, 0, 0]) := by
  obtain ⟨b, hl, ho, hlike, h9, h16, h15, h1, hM, hs⟩ := spartaD_facts (dir := spartaDirA) (by decide +kernel)
  obtain ⟨m, hm, hmb, hi⟩ := (C78_opens ho (by decide) [infoA, ⟨[0x45], [], 5, 0x900, false, false, true, false, false, [0, 0, 0, 0, 0, 0]⟩]).mpr ⟨hlike, by
    rw [h9]
    refine ⟨_, hM, .inr ⟨5, [], _, rfl, by decide, ?_, ?_⟩⟩
    · rw [hs 5 (by omega) (by omega)]; decide +kernel
    · simp only
      rw [List.flatMap_cons, List.flatMap_nil, List.append_nil, hs 5 (by omega) (by omega)]
      decide +kernel⟩
  have hh := open_hdr ho hm
  obtain ⟨d, hd, hdi⟩ : ∃ d ∈ m.files, d.info = infoA := by
    have : infoA ∈ m.files.map SDirent.info := by rw [hi]; exact List.mem_cons_self
    exact List.mem_map.mp this
  have hst : d.startingSector = 6 := congrArg SInfo.start hdi
  have hln : d.length = 5 := congrArg SInfo.length hdi
  have hsp : d.stamp = [0, 0, 0, 0, 0, 0] := congrArg SInfo.stamp hdi
  have hfn : d.filename = [0x41] := by rw [SDirent.filename_eq, hdi]; rfl
  have hM6 : MapOf m.hdr b d.startingSector (7 :: [] ++ 0 :: List.replicate 60 0) := by
    rw [hh, hst]
    exact mapOf_one (by decide) (hs 6 (by omega) (by omega)) (by decide +kernel) (by decide +kernel)
  obtain ⟨s, t, vn, flags, pos, k, k1, k2, k3, k4, _, k6⟩ := C123_sparta hm say hd hM6 (by intro x hx; rw [List.mem_singleton.mp hx, hh]; decide) (by omega)
  have hp : pos = 768 := by
    rw [hh] at k6
    have h7 : xfdHeader.getPos 7 = .ok (768, 128) := by decide +kernel
    rw [h7] at k6
    exact (congrArg Prod.fst (Except.ok.inj k6)).symm
  have hc : (((7 : Nat) :: []).flatMap (sectorBytes m.hdr b)).take d.length.toNat = [1, 2, 3, 4, 5] := by
    rw [hln, hh, List.flatMap_cons, List.flatMap_nil, List.append_nil, hs 7 (by omega) (by omega)]
    decide +kernel
  rw [hc, hp] at k3
  rw [hfn, hln, hst, hsp] at k4
  refine ⟨m, d, s, t, vn, flags, by rw [hmb]; exact hm, hd, by rw [hmb]; exact k1, k2, k3, k4⟩

end Atr
