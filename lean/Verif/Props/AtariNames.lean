import Verif.Spec.AtariNames
import Verif.Props.AtariFiles
import Verif.Props.AtariDirent
import Verif.Props.MyDos
/-!
# C113: which files Atari DOS finds after the program has changed a disk
-/
namespace Atr

/-! ### the name in an entry -/

theorem encode_name (d : ADirent) : slice d.encode 5 16 = encS 8 d.basename ++ encS 3 d.ext := by
  obtain ⟨a0, a1, a2, a3, a4, a5, a6, a7, ha⟩ := exists8 (length_encS 8 d.basename)
  obtain ⟨e0, e1, e2, hex⟩ := exists3 (length_encS 3 d.ext)
  simp [ADirent.encode, enc16, ha, hex, slice]

theorem encode_flag6 (d : ADirent) : ((d.encode).getD 0 0).toNat.testBit 6 = d.inUse := by
  show (UInt8.ofNat d.encodeFlag).toNat.testBit 6 = d.inUse
  rw [toNat_ofNat, Nat.mod_eq_of_lt (encodeFlag_lt d)]
  exact (encodeFlag_bits d).2.2.2.2.2.2.1

/-- names and extensions that were read from a disk do not end with a blank -/
theorem parse_names {h : AHeader} {i : Nat} {r : Bytes} {d : ADirent} (hp : ADirent.parse h i r = .ok d) :
    d.basename.length ≤ 8 ∧ d.ext.length ≤ 3 ∧ rstripWs d.basename = d.basename ∧ rstripWs d.ext = d.ext := by
  obtain ⟨a0, a1, a2, a3, a4, n0, n1, n2, n3, n4, n5, n6, n7, e0, e1, e2, rfl⟩ := exists16 (parse_ok hp).1
  have h1 : d.basename = rstripWs (rstripNul [n0, n1, n2, n3, n4, n5, n6, n7]) ∧ d.ext = rstripWs (rstripNul [e0, e1, e2]) := by
    unfold ADirent.parse at hp
    injection hp with hp
    rw [← hp]
    exact ⟨rfl, rfl⟩
  have hn : ∀ l : Bytes, (rstripNul l).length ≤ l.length := by
    intro l
    unfold rstripNul
    have := (List.dropWhile_suffix (· == (0 : UInt8)) (l := l.reverse)).length_le
    simp at this ⊢; exact this
  refine ⟨?_, ?_, ?_, ?_⟩
  · rw [h1.1]
    exact Nat.le_trans (length_rstripWs _) (hn _)
  · rw [h1.2]
    exact Nat.le_trans (length_rstripWs _) (hn _)
  · rw [h1.1, rstripWs_idem]
  · rw [h1.2, rstripWs_idem]

theorem last_not_blank {n : Nat} {x : Bytes} (hl : x.length ≤ n + 1) (hx : rstripWs x = x) : (encS (n + 1) x)[n]? ≠ some 32 := by
  intro hc
  unfold encS at hc
  rw [List.take_of_length_le hl] at hc
  by_cases h1 : x.length ≤ n
  · rw [List.getElem?_append_right h1, List.getElem?_replicate] at hc
    split at hc <;> cases hc
  · have h2 : x.length = n + 1 := by omega
    rw [List.getElem?_append_left (by omega)] at hc
    obtain ⟨y, hy⟩ : ∃ y, x = y ++ [32] := by
      refine ⟨x.take n, ?_⟩
      apply List.ext_getElem?
      intro k
      by_cases hk : k < n
      · rw [List.getElem?_append_left (by rw [List.length_take]; omega), List.getElem?_take, if_pos hk]
      · by_cases hkn : k = n
        · subst hkn
          rw [hc, List.getElem?_append_right (by rw [List.length_take]; omega), List.length_take]
          rw [show k - min k x.length = 0 by omega]
          rfl
        · rw [List.getElem?_eq_none (by omega), List.getElem?_eq_none (by rw [List.length_append, List.length_take]; simp; omega)]
    have h3 := rstripWs_spaces y 1
    rw [show List.replicate 1 (32 : UInt8) = [32] from rfl, ← hy, hx] at h3
    have h4 := length_rstripWs y
    have h5 := congrArg List.length hy
    rw [List.length_append] at h5
    rw [← h3] at h4
    simp at h5
    omega

/-- the name of an entry that was read from a disk is not padded with blanks when it is written again -/
theorem encode_not_padded {h : AHeader} {i : Nat} {r : Bytes} {d : ADirent} (hp : ADirent.parse h i r = .ok d) :
    (slice d.encode 5 16)[7]? ≠ some 32 ∧ (slice d.encode 5 16)[10]? ≠ some 32 := by
  obtain ⟨h1, h2, h3, h4⟩ := parse_names hp
  rw [encode_name, List.getElem?_append_left (by rw [length_encS]; omega), List.getElem?_append_right (by rw [length_encS]; omega),
    length_encS]
  exact ⟨last_not_blank h1 h3, last_not_blank h2 h4⟩

/-! ### the directory after an operation -/

theorem finds_written {encs rest : List Bytes} (hr : ∀ e, rest.head? = some e → e.length = 16 ∧ e.head? = some 0) {x : Bytes} :
    DosFinds (encs ++ rest) x → DosFinds encs x := by
  rintro ⟨i, e, h1, h2, h3, h4⟩
  by_cases hi : i < encs.length
  · rw [List.getElem?_append_left hi] at h1
    refine ⟨i, e, h1, ?_, h3, h4⟩
    intro j f hj hf
    exact h2 j f hj (by rw [List.getElem?_append_left (by omega)]; exact hf)
  · rw [List.getElem?_append_right (by omega)] at h1
    cases rest with
    | nil => simp at h1
    | cons r rest =>
      obtain ⟨r1, r2⟩ := hr r rfl
      by_cases hz : i = encs.length
      · rw [hz, Nat.sub_self] at h1
        injection h1 with h1
        subst h1
        cases r with
        | nil => cases r2
        | cons c r =>
          injection r2 with r2
          subst r2
          simp at h3
      · exact absurd r2 (h2 encs.length r (by omega) (by rw [List.getElem?_append_right (by omega), Nat.sub_self]; rfl))


theorem entries_after {h b b' ds v1 sl} (c : Consistent h b ds) {raw : List ADirent}
    (comm : Committed h b b' v1 sl (calcDirSectors h raw)) (hq : 16 * raw.length ≤ 8 * h.sectorSize)
    (hge : ds.length ≤ raw.length) (hsl : ∀ w ∈ sl, UserSec h w.num) :
    ∃ rest, rawEntries h b' = raw.map ADirent.encode ++ rest ∧
      (∀ e, rest.head? = some e → e.length = 16 ∧ e.head? = some 0) := by
  have g := c.geom
  have g' : h.Geom b'.length := by rw [comm.len]; exact g
  obtain ⟨_, rest, h1, h2, _⟩ := rawEntries_write (b := b) (b' := b') g g' c.sectorSize c.size g.ni (raw.map ADirent.encode)
    (by intro x hx; obtain ⟨d, _, rfl⟩ := List.mem_map.mp hx; simp) (by simpa using hq) comm.dir
    (by
      intro s hs1 hs2 hs3
      apply comm.other s (dataSec_of g (by omega) (by have := c.size; omega)) (by omega) _ hs3
      intro hm
      obtain ⟨w, hw, rfl⟩ := List.mem_map.mp hm
      have := (hsl w hw).2.2.2
      omega)
    (by
      intro i e hi hm he
      apply c.term i e _ hm he
      rw [List.length_map] at hi; omega)
  exact ⟨rest, h1, h2⟩

/-- what is found after the directory was written, is one of the entries that were encoded -/
theorem finds_encoded {raw : List ADirent} {rest : List Bytes} (hr : ∀ e, rest.head? = some e → e.length = 16 ∧ e.head? = some 0)
    {x : Bytes} (hx : DosFinds (raw.map ADirent.encode ++ rest) x) :
    ∃ e ∈ raw, e.inUse = true ∧ encS 8 e.basename ++ encS 3 e.ext = x := by
  obtain ⟨i, e, h1, _, h3, h4⟩ := finds_written hr hx
  obtain ⟨d, hd, rfl⟩ := List.mem_map.mp (List.mem_of_getElem? h1)
  exact ⟨d, hd, by rw [← encode_flag6]; exact h3, by rw [← encode_name]; exact h4⟩

/-! ### names with blanks at the end -/

theorem dosName_short {base ext : Bytes} (h1 : base.length ≤ 8) (h2 : ext.length ≤ 3) (h : base.length < 8 ∨ ext.length < 3) :
    (dosName base ext)[7]? = some 32 ∨ (dosName base ext)[10]? = some 32 := by
  have hl : (base ++ List.replicate (8 - base.length) (32 : UInt8)).length = 8 := by simp; omega
  rcases h with h | h
  · left
    unfold dosName
    rw [List.getElem?_append_left (by omega), List.getElem?_append_right (by omega), List.getElem?_replicate, if_pos (by omega)]
  · right
    unfold dosName
    rw [List.getElem?_append_right (by omega), hl, List.getElem?_append_right (by omega), List.getElem?_replicate, if_pos (by omega)]

theorem old_entry {h : AHeader} {b : Bytes} {ds : List ADirent} (c : Consistent h b ds) {e : ADirent} (he : e ∈ ds) :
    (encS 8 e.basename ++ encS 3 e.ext)[7]? ≠ some 32 ∧ (encS 8 e.basename ++ encS 3 e.ext)[10]? ≠ some 32 := by
  obtain ⟨i, hi⟩ := List.getElem?_of_mem he
  obtain ⟨r, _, hp, _⟩ := (scanDir_ok c.dir).2 i e hi
  rw [← encode_name]
  exact encode_not_padded hp

theorem old_names {h : AHeader} {b : Bytes} {ds : List ADirent} (c : Consistent h b ds) {e : ADirent} (he : e ∈ ds) :
    e.basename.length ≤ 8 ∧ e.ext.length ≤ 3 ∧ rstripWs e.basename = e.basename ∧ rstripWs e.ext = e.ext ∧ e.ext[2]? ≠ some 0 := by
  obtain ⟨i, hi⟩ := List.getElem?_of_mem he
  obtain ⟨r, _, hp, _⟩ := (scanDir_ok c.dir).2 i e hi
  obtain ⟨h1, h2, h3, h4⟩ := parse_names hp
  refine ⟨h1, h2, h3, h4, ?_⟩
  intro hc
  have hl := (List.getElem?_eq_some_iff.mp hc).1
  obtain ⟨a, a', a'', ha⟩ := exists3 (show e.ext.length = 3 by omega)
  have hs := c.stable i e hi
  rw [parse_encode] at hs
  injection hs with hs
  have h5 : rstripWs (rstripNul (encS 3 e.ext)) = e.ext := by
    have := congrArg ADirent.ext hs
    exact this
  rw [ha] at hc h5
  injection hc with hc
  subst hc
  have h6 : rstripNul (encS 3 [a, a', 0]) = rstripNul [a, a'] := by
    show (List.dropWhile _ [0, a', a]).reverse = (List.dropWhile _ [a', a]).reverse
    rfl
  rw [h6] at h5
  have h7 := congrArg List.length h5
  have h8 := length_rstripWs (rstripNul [a, a'])
  have h9 : (rstripNul [a, a']).length ≤ 2 := by
    have := (List.dropWhile_suffix (· == (0 : UInt8)) (l := [a, a'].reverse)).length_le
    unfold rstripNul
    simp at this ⊢; exact this
  simp at h7
  omega

/-- the name in the entry of a file that is added -/
theorem new_field (name : Bytes) (idx count first : Nat) :
    encS 8 (rawEntry name idx count first).basename = padRight 8 ((name.takeWhile (· != 0x2e)).take 8) ∧
    encS 3 (rawEntry name idx count first).ext = if name.contains 0x2e then encS 3 ((name.dropWhile (· != 0x2e)).drop 1) else [32, 32, 32] := by
  have h1 : (rawEntry name idx count first).basename = padRight 8 ((name.takeWhile (· != 0x2e)).take 8) := by
    show (ADirent.setValues name idx).basename = _
    rw [setValues_eq]
  have h2 : (rawEntry name idx count first).ext = if name.contains 0x2e then (name.dropWhile (· != 0x2e)).drop 1 else [32, 32, 32] := by
    show (ADirent.setValues name idx).ext = _
    rw [setValues_eq]
  rw [h1, h2]
  constructor
  · generalize hx : (name.takeWhile (· != 0x2e)).take 8 = x
    have hl : x.length ≤ 8 := by rw [← hx, List.length_take]; omega
    have hpl : (padRight 8 x).length = 8 := by simp [padRight]; omega
    rw [encS, List.take_of_length_le (by omega), hpl]; simp
  · split <;> rfl

/-! ### the directory after adding and removing -/

theorem added_entries {m m' : AImg} {ds} {name data : Bytes} (hm : Mounted m ds) (h0 : (0 : UInt8) ∉ name)
    (hnew : norm83 name ∉ m.names) (hslot : m.files.length < 64) (hne : data ≠ []) (hw : AImg.writeFile name data m = (.ok (), m')) :
    ∃ count first rest, rawEntries m'.hdr m'.bytes =
        (setDirent ds (getFreeDirent ds) (rawEntry name (getFreeDirent ds) count first)).map ADirent.encode ++ rest ∧
      (∀ e, rest.head? = some e → e.length = 16 ∧ e.head? = some 0) ∧ (∃ ds', Mounted m' ds') ∧
      ∃ d ∈ m'.files, d.basename = base83 name ∧ d.ext = ext83 name := by
  by_cases hk : (pieces m.hdr data).length ≤ (freePool m.hdr m.bytes).length
  · have hfr : ∀ d ∈ ds, d.inUse = true → d.filename ≠ norm83 name := by
      intro d hd hu hn
      refine hnew (List.mem_map.mpr ⟨d, ?_, hn⟩)
      rw [hm.eq]; exact mem_files.mpr ⟨hd, hu⟩
    rw [hm.eq] at hslot
    obtain ⟨b', order, map', e, w, nf, c', hw', _⟩ := writeFile_ok hm.2 hne h0 (free_slot hslot) hfr hk
    rw [← hm.eq, hw] at hw'
    injection hw' with _ hw'
    subst hw'
    obtain ⟨k1, _, _⟩ := getFreeDirent_spec ds
    obtain ⟨und, uall⟩ := w.res.user hm.2.toLoose
    obtain ⟨p1, _⟩ := pieces_props m.hdr data hm.2.sectorSize hne
    have ln := linkSectors_nums hm.2.sectorSize (free_slot hslot) (pieces m.hdr data) order w.res.len.symm (fun x hx => (p1 x hx).2)
      (fun n hn => by have := (uall n hn).2.1; omega)
    obtain ⟨rest, r1, r2⟩ := entries_after hm.2 w.comm
      (by
        rw [length_setDirent k1]
        have := hm.2.dirLen
        have := hm.2.sectorSize
        have := free_slot hslot
        omega)
      (by rw [length_setDirent k1]; omega)
      (by
        intro x hx
        have : x.num ∈ order := by rw [← ln.1]; exact List.mem_map_of_mem hx
        exact (uall _ this).1)
    refine ⟨_, _, rest, r1, r2, ⟨_, mounted_mountRec c'⟩, e, mem_files.mpr ⟨?_, by rw [nf.entry]; rfl⟩, by rw [nf.entry]; rfl, by rw [nf.entry]; rfl⟩
    apply List.mem_of_getElem? (i := getFreeDirent ds)
    rw [getElem?_setDirent k1, if_pos rfl]
  · rw [mounted_full hm (by omega)] at hw
    injection hw with hw _; cases hw

theorem removed_entries {m m' : AImg} {ds} {name : Bytes} (hm : Mounted m ds) (hl : name ∈ m.names)
    (hw : AImg.deleteFile name m = (.ok (), m')) :
    ∃ i d rest, ds[i]? = some d ∧ rawEntries m'.hdr m'.bytes = (ds.set i d.markDeleted).map ADirent.encode ++ rest ∧
      (∀ e, rest.head? = some e → e.length = 16 ∧ e.head? = some 0) := by
  obtain ⟨d, hd, rfl⟩ := List.mem_map.mp hl
  rw [hm.eq] at hd
  obtain ⟨hd1, hd2⟩ := mem_files.mp hd
  obtain ⟨i, hi⟩ := List.getElem?_of_mem hd1
  obtain ⟨l, l1, _⟩ := hm.2.chains d hd1 hd2
  obtain ⟨b', map', w, c', hdel, _⟩ := deleteFile_ok hm.2 hi hd2 l1
  rw [← hm.eq, hw] at hdel
  injection hdel with _ hdel
  subst hdel
  obtain ⟨rest, r1, r2⟩ := entries_after hm.2 w.comm (by rw [List.length_set]; exact hm.2.dirLen) (by simp) (by simp)
  exact ⟨i, d, rest, hi, r1, r2⟩

theorem name_parts {base ext : Bytes} (h1 : base.length ≤ 8) :
    (dosName base ext).take 8 = base ++ List.replicate (8 - base.length) 32 ∧
    (dosName base ext).drop 8 = ext ++ List.replicate (3 - ext.length) 32 := by
  have hl : (base ++ List.replicate (8 - base.length) (32 : UInt8)).length = 8 := by simp; omega
  exact ⟨List.take_left' hl, List.drop_left' hl⟩

/-- the entry of the added file has the name of another one only if it is the same in the listing, too -/
theorem new_name_same {h : AHeader} {b : Bytes} {ds : List ADirent} (c : Consistent h b ds) {d : ADirent} (hd : d ∈ ds)
    {name : Bytes} {idx count first : Nat}
    (he : encS 8 (rawEntry name idx count first).basename ++ encS 3 (rawEntry name idx count first).ext = dosName d.basename d.ext) :
    d.filename = norm83 name := by
  obtain ⟨o1, o2, o3, o4, o5⟩ := old_names c hd
  obtain ⟨p1, p2⟩ := name_parts o1
  rw [← he, List.take_left' (length_encS _ _)] at p1
  rw [← he, List.drop_left' (length_encS _ _)] at p2
  obtain ⟨f1, f2⟩ := new_field name idx count first
  rw [f1] at p1
  rw [f2] at p2
  have hb : d.basename = base83 name := by
    have := congrArg rstripWs p1
    rw [rstripWs_spaces, o3, padRight, rstripWs_spaces] at this
    exact this.symm
  have hx : d.ext = ext83 name := by
    have h3 := congrArg rstripWs p2
    rw [rstripWs_spaces, o4] at h3
    rw [← h3]
    cases hc : name.contains 0x2e with
    | false =>
      have : name.dropWhile (· != 0x2e) = [] := by
        have h1 : name.takeWhile (· != 0x2e) = name := by
          apply takeWhile_all
          intro x hx; simp; intro he; subst he
          rw [← List.contains_iff_mem, hc] at hx; simp at hx
        have := List.takeWhile_append_dropWhile (p := (· != (0x2e : UInt8))) (l := name)
        rw [h1] at this
        simpa using this
      unfold ext83
      rw [this]
      simp only [Bool.false_eq_true, if_false]
      decide
    | true =>
      rw [hc, if_pos rfl] at p2
      rw [if_pos rfl]
      unfold ext83
      generalize (name.dropWhile (· != 0x2e)).drop 1 = y at p2 ⊢
      have hy : 3 ≤ y.length := by
        apply Nat.le_of_not_lt
        intro hlt
        have h4 : (encS 3 y)[2]? = some 0 := by
          unfold encS
          rw [List.getElem?_append_right (by rw [List.length_take]; omega), List.getElem?_replicate, if_pos (by rw [List.length_take]; omega)]
        rw [p2] at h4
        by_cases h5 : d.ext.length = 3
        · rw [h5, Nat.sub_self, List.replicate_zero, List.append_nil] at h4
          exact o5 h4
        · rw [List.getElem?_append_right (by omega), List.getElem?_replicate] at h4
          split at h4 <;> cases h4
      unfold encS
      rw [show 3 - y.length = 0 by omega, List.replicate_zero, List.append_nil]
  unfold ADirent.filename norm83
  rw [hb, hx]
  rfl

/-! ### C113 -/

/-- **C113 (refuted), adding.** After any file was added, Atari DOS does not find any more the files that were on the disk, if
their names have less than eight characters or their extensions less than three: the blanks at the end have become zeros. -/
theorem C113_refuted_add {m m' : AImg} {ds} {name data : Bytes} (hm : Mounted m ds) (h0 : (0 : UInt8) ∉ name)
    (hnew : norm83 name ∉ m.names) (hslot : m.files.length < 64) (hne : data ≠ []) (hw : AImg.writeFile name data m = (.ok (), m'))
    {d : ADirent} (hd : d ∈ m.files) (hs : d.basename.length < 8 ∨ d.ext.length < 3) :
    d ∈ m'.files ∧ ¬ m'.DosHas d.basename d.ext := by
  have hk := op_step hm (.write name data) ⟨hne, h0, hslot, hnew⟩
  have hrun : (Op.run (.write name data) m).2 = m' := congrArg Prod.snd hw
  rw [hrun] at hk
  obtain ⟨_, _, _, k3, _⟩ := hk
  refine ⟨(k3 d hd (fun h => by cases h)).1, ?_⟩
  intro hf
  obtain ⟨count, first, rest, r1, r2, _⟩ := added_entries hm h0 hnew hslot hne hw
  unfold AImg.DosHas at hf
  rw [r1] at hf
  obtain ⟨e, he, hu, hx⟩ := finds_encoded r2 hf
  have hd' := hd
  rw [hm.eq] at hd'
  obtain ⟨hd1, hd2⟩ := mem_files.mp hd'
  obtain ⟨o1, o2, _⟩ := old_names hm.2 hd1
  obtain ⟨k1, _, _⟩ := getFreeDirent_spec ds
  rcases mem_setDirent k1 he with rfl | ⟨i, _, hi⟩
  · exact hnew (by rw [← new_name_same hm.2 hd1 hx]; exact List.mem_map_of_mem hd)
  · obtain ⟨n1, n2⟩ := old_entry hm.2 (List.mem_of_getElem? hi)
    rw [hx] at n1 n2
    rcases dosName_short o1 o2 hs with h | h
    · exact n1 h
    · exact n2 h

/-- **C113 (refuted), removing.** After any file was removed, the same holds. -/
theorem C113_refuted_remove {m m' : AImg} {ds} {name : Bytes} (hm : Mounted m ds) (hl : name ∈ m.names)
    (hw : AImg.deleteFile name m = (.ok (), m')) {d : ADirent} (hd : d ∈ m.files) (hn : d.filename ≠ name)
    (hs : d.basename.length < 8 ∨ d.ext.length < 3) :
    d ∈ m'.files ∧ ¬ m'.DosHas d.basename d.ext := by
  have hk := op_step hm (.delete name) (Or.inl hl)
  have hrun : (Op.run (.delete name) m).2 = m' := congrArg Prod.snd hw
  rw [hrun] at hk
  obtain ⟨_, _, _, k3, _⟩ := hk
  refine ⟨(k3 d hd (fun h => by injection h with h; exact hn h.symm)).1, ?_⟩
  intro hf
  obtain ⟨i, d0, rest, hi, r1, r2⟩ := removed_entries hm hl hw
  unfold AImg.DosHas at hf
  rw [r1] at hf
  obtain ⟨e, he, hu, hx⟩ := finds_encoded r2 hf
  rw [hm.eq] at hd
  obtain ⟨hd1, hd2⟩ := mem_files.mp hd
  obtain ⟨o1, o2, _⟩ := old_names hm.2 hd1
  rcases List.mem_or_eq_of_mem_set he with h | h
  · obtain ⟨n1, n2⟩ := old_entry hm.2 h
    rw [hx] at n1 n2
    rcases dosName_short o1 o2 hs with h | h
    · exact n1 h
    · exact n2 h
  · subst h
    cases hu

/-- a file with a name of eight characters and an extension of three is found -/
theorem full_found {m : AImg} {ds} (hm : Mounted m ds) {d : ADirent} (hd : d ∈ m.files) (h8 : d.basename.length = 8)
    (h3 : d.ext.length = 3) : m.DosHas d.basename d.ext := by
  rw [hm.eq] at hd
  obtain ⟨hd1, hd2⟩ := mem_files.mp hd
  obtain ⟨i, hi⟩ := List.getElem?_of_mem hd1
  obtain ⟨_, hall⟩ := scanDir_ok hm.2.dir
  obtain ⟨r, r1, r2, _⟩ := hall i d hi
  obtain ⟨p1, _, p3, p4, _⟩ := parse_ok r2
  refine ⟨i, r, r1, ?_, ?_, ?_⟩
  · intro j f hj hf hz
    have hil := (List.getElem?_eq_some_iff.mp hi).1
    obtain ⟨r', q1, q2, q3⟩ := hall j ds[j] (List.getElem?_eq_getElem (by omega))
    rw [hf] at q1
    injection q1 with q1
    subst q1
    obtain ⟨_, _, t3, t4, _⟩ := parse_ok q2
    rw [hz] at t3
    injection t3 with t3
    rcases q3 with q3 | q3
    · rw [t4, ← t3] at q3
      cases q3
    · exact q3 t3.symm
  · rw [List.getD_eq_getElem?_getD, ← List.head?_eq_getElem?, p3]
    exact p4.symm.trans hd2
  · obtain ⟨a0, a1, a2, a3, a4, n0, n1, n2, n3, n4, n5, n6, n7, e0, e1, e2, rfl⟩ := exists16 p1
    have hn : d.basename = rstripWs (rstripNul [n0, n1, n2, n3, n4, n5, n6, n7]) ∧ d.ext = rstripWs (rstripNul [e0, e1, e2]) := by
      unfold ADirent.parse at r2
      injection r2 with r2
      rw [← r2]
      exact ⟨rfl, rfl⟩
    have full : ∀ l : Bytes, (rstripWs (rstripNul l)).length = l.length → rstripWs (rstripNul l) = l := by
      intro l hl
      have e1 : rstripNul l <+: l := by
        unfold rstripNul
        exact List.reverse_suffix.mp (by rw [List.reverse_reverse]; exact List.dropWhile_suffix _)
      have e2 : rstripWs (rstripNul l) <+: rstripNul l := by
        unfold rstripWs
        exact List.reverse_suffix.mp (by rw [List.reverse_reverse]; exact List.dropWhile_suffix _)
      exact (e2.trans e1).eq_of_length hl
    rw [hn.1] at h8
    rw [hn.2] at h3
    have f1 := full _ (h8.trans rfl)
    have f2 := full _ (h3.trans rfl)
    rw [f1] at hn
    rw [f2] at hn
    unfold dosName
    rw [hn.1, hn.2]
    rfl

/-- **C113, what holds.** A file whose name has eight characters and whose extension has three is found by Atari DOS, whatever
was added, removed and shredded. -/
theorem C113_partial {m m' : AImg} {ds} (hm : Mounted m ds) {d : ADirent} (hd : d ∈ m.files) (h8 : d.basename.length = 8)
    (h3 : d.ext.length = 3) (hr : ReachBut d.filename m m') : m'.DosHas d.basename d.ext := by
  have hk := (C112_kept hm hd hr).1
  have : Reach m m' := by
    clear hk hd
    induction hr with
    | start => exact .start
    | step op _ ha _ ih => exact .step op ih ha
  obtain ⟨ds', hm'⟩ := reach_mounted hm this
  exact full_found hm' hk h8 h3

/-- the two parts of a canonical name -/
theorem canon_parts {name : Bytes} (hc : norm83 name = name) :
    (name.takeWhile (· != 0x2e)).length ≤ 8 ∧ ((name.dropWhile (· != 0x2e)).drop 1).length ≤ 3 ∧
    ((name.dropWhile (· != 0x2e)).drop 1 = [] ↔ name.contains 0x2e = false) := by
  have hb : ∀ x ∈ base83 name, (x != 0x2e) = true := by
    intro x hx
    have h1 := List.mem_of_mem_take (mem_rstripWs hx)
    have h2 := List.all_takeWhile (p := fun x : UInt8 => x != 0x2e) (l := name)
    rw [List.all_eq_true] at h2
    exact h2 x h1
  have hn : name = base83 name ++ (if ext83 name = [] then [] else 0x2e :: ext83 name) := hc.symm
  have hl1 : (base83 name).length ≤ 8 := by
    have := length_rstripWs ((name.takeWhile (· != 0x2e)).take 8)
    rw [List.length_take] at this; unfold base83; omega
  have hl2 : (ext83 name).length ≤ 3 := by
    have := length_rstripWs ((((name.dropWhile (· != 0x2e)).drop 1)).take 3)
    rw [List.length_take] at this; unfold ext83; omega
  generalize base83 name = B at *
  generalize ext83 name = E at *
  have hdrop : ∀ l : Bytes, (B ++ l).takeWhile (· != 0x2e) = B ++ l.takeWhile (· != 0x2e) ∧
      (B ++ l).dropWhile (· != 0x2e) = l.dropWhile (· != 0x2e) := by
    intro l
    exact ⟨List.takeWhile_append_of_pos hb, List.dropWhile_append_of_pos hb⟩
  by_cases he : E = []
  · rw [if_pos he] at hn
    obtain ⟨d1, d2⟩ := hdrop []
    rw [← hn] at d1 d2
    rw [d1, d2]
    refine ⟨by simpa using hl1, by simp, ?_, fun _ => rfl⟩
    intro _
    cases hx : name.contains 0x2e with
    | false => rfl
    | true =>
      rw [List.contains_iff_mem, hn, List.append_nil] at hx
      exact absurd (hb _ hx) (by decide)
  · rw [if_neg he] at hn
    obtain ⟨d1, d2⟩ := hdrop (0x2e :: E)
    rw [← hn] at d1 d2
    rw [d1, d2]
    refine ⟨by simpa using hl1, by simpa using hl2, ?_, ?_⟩
    · intro h
      exact absurd (by simpa using h) he
    · intro h
      rw [hn] at h
      simp at h

/-- **C113, the file that is added** is found exactly when it has no extension or one of three characters. -/
theorem C113_added {m m' : AImg} {ds} {name data : Bytes} (hm : Mounted m ds) (hc : Canon83 name)
    (hnew : name ∉ m.names) (hslot : m.files.length < 64) (hne : data ≠ []) (hw : AImg.writeFile name data m = (.ok (), m')) :
    m'.DosHas (name.takeWhile (· != 0x2e)) ((name.dropWhile (· != 0x2e)).drop 1) ↔
      (name.dropWhile (· != 0x2e)).drop 1 = [] ∨ ((name.dropWhile (· != 0x2e)).drop 1).length = 3 := by
  obtain ⟨count, first, rest, r1, r2, _⟩ := added_entries hm hc.2 (by rw [hc.1]; exact hnew) hslot hne hw
  obtain ⟨c1, c2, c3⟩ := canon_parts hc.1
  obtain ⟨f1, f2⟩ := new_field name (getFreeDirent ds) count first
  obtain ⟨k1, _, k3⟩ := getFreeDirent_spec ds
  rw [List.take_of_length_le c1] at f1
  generalize (name.takeWhile (· != 0x2e)) = B at *
  generalize (name.dropWhile (· != 0x2e)).drop 1 = E at *
  unfold AImg.DosHas
  rw [r1]
  constructor
  · intro hf
    by_cases h1 : E = []
    · exact Or.inl h1
    · right
      apply Classical.byContradiction
      intro h3
      have hdot : name.contains 0x2e = true := by
        cases hx : name.contains 0x2e with
        | true => rfl
        | false => exact absurd (c3.mpr hx) h1
      rw [hdot, if_pos rfl] at f2
      obtain ⟨e, he, _, hx⟩ := finds_encoded r2 hf
      have h10 : (dosName B E)[10]? = some 32 := by
        have hl : (B ++ List.replicate (8 - B.length) (32 : UInt8)).length = 8 := by simp; omega
        unfold dosName
        rw [List.getElem?_append_right (by omega), hl, List.getElem?_append_right (by omega), List.getElem?_replicate, if_pos (by omega)]
      rw [← hx] at h10
      rcases mem_setDirent k1 he with rfl | ⟨i, _, hi⟩
      · rw [List.getElem?_append_right (by rw [length_encS]; omega), length_encS, f2] at h10
        unfold encS at h10
        rw [List.getElem?_append_right (by rw [List.length_take]; omega), List.getElem?_replicate] at h10
        split at h10 <;> cases h10
      · exact (old_entry hm.2 (List.mem_of_getElem? hi)).2 h10
  · intro h
    have hname : slice (rawEntry name (getFreeDirent ds) count first).encode 5 16 = dosName B E := by
      rw [encode_name, f1, f2]
      unfold dosName padRight
      congr 1
      rcases h with h | h
      · rw [c3.mp h, h]; rfl
      · have hdot : name.contains 0x2e = true := by
          cases hx : name.contains 0x2e with
          | true => rfl
          | false => rw [c3.mpr hx] at h; cases h
        rw [hdot, if_pos rfl]
        unfold encS
        rw [List.take_of_length_le (by omega), h]
        rfl
    refine ⟨getFreeDirent ds, _, ?_, ?_, ?_, hname⟩
    · rw [List.getElem?_append_left (by rw [List.length_map, length_setDirent k1]; omega), List.getElem?_map, getElem?_setDirent k1,
        if_pos rfl]
      rfl
    · intro j f hj hf hz
      rw [List.getElem?_append_left (by rw [List.length_map, length_setDirent k1]; omega), List.getElem?_map, getElem?_setDirent k1,
        if_neg (by omega), List.getElem?_eq_getElem (show j < ds.length by omega)] at hf
      injection hf with hf
      have hu := k3 j ds[j] hj (List.getElem?_eq_getElem (by omega))
      rw [← encode_flag6, hf, List.getD_eq_getElem?_getD, ← List.head?_eq_getElem?, hz] at hu
      cases hu
    · rw [encode_flag6]
      show (ADirent.setValues name (getFreeDirent ds)).inUse = true
      rw [setValues_eq]

/-- Concrete case: `A.TXT` is found after it was added; after `B` was added, too, it is still listed and readable, but not found. -/
example : ∃ m1 m2, AImg.writeFile nameA dataA (mountRec sdH sdDisk []) = (.ok (), m1) ∧
    AImg.writeFile nameB dataB m1 = (.ok (), m2) ∧ m1.DosHas [0x41] [0x54, 0x58, 0x54] ∧ m2.DosHas [0x42] [] ∧
    m2.findFile nameA = .ok dataA ∧ ¬ m2.DosHas [0x41] [0x54, 0x58, 0x54] := by
  obtain ⟨m1, m2, ds1, ds2, h1, h2, h3, h4, _, _, h5, h6, _⟩ := two_files
  have hn1 : m1.names = [nameA] := by
    show m1.files.map ADirent.filename = _
    rw [← listing_names, h5]; rfl
  have hl : m1.files.length = 1 := by
    have := congrArg List.length hn1
    unfold AImg.names at this
    rw [List.length_map] at this
    exact this
  refine ⟨m1, m2, h1, h3, ?_, ?_, h6, ?_⟩
  · exact (C113_added mounted_sd canonA (by decide) (by decide) dataA_ne h1).mpr (Or.inr rfl)
  · exact (C113_added h2 canonB (by rw [hn1]; decide) (by omega) dataB_ne h3).mpr (Or.inl rfl)
  · obtain ⟨_, _, _, _, _, _, d, d1, d2, d3⟩ := added_entries mounted_sd canonA.2 (by decide) (by decide) dataA_ne h1
    have hb : d.basename = [0x41] := d2.trans (by decide)
    have he : d.ext = [0x54, 0x58, 0x54] := d3.trans (by decide)
    have := (C113_refuted_add h2 canonB.2 (by rw [hn1]; decide) (by omega) dataB_ne h3 d1 (Or.inl (by rw [hb]; decide))).2
    rwa [hb, he] at this

/-- Concrete case: `B` is found after it was added; after `A.TXT` was removed it is still listed, but not found. -/
example : ∃ m2 m3, AImg.deleteFile nameA m2 = (.ok (), m3) ∧ m2.DosHas [0x42] [] ∧ nameB ∈ m3.names ∧ ¬ m3.DosHas [0x42] [] := by
  obtain ⟨m1, m2, ds1, ds2, h1, h2, h3, h4, _, _, h5, h6, _, h8, _⟩ := two_files
  have hn1 : m1.names = [nameA] := by
    show m1.files.map ADirent.filename = _
    rw [← listing_names, h5]; rfl
  have hl : m1.files.length = 1 := by
    have := congrArg List.length hn1
    unfold AImg.names at this
    rw [List.length_map] at this
    exact this
  obtain ⟨m3, _, _, _, _, _, k1, _⟩ := mounted_delete h4 h8
  obtain ⟨_, _, _, _, _, _, d, d1, d2, d3⟩ := added_entries h2 canonB.2 (by rw [hn1]; decide) (by omega) dataB_ne h3
  have hb : d.basename = [0x42] := d2.trans (by decide)
  have he : d.ext = [] := d3.trans (by decide)
  have hf : d.filename = nameB := by
    unfold ADirent.filename
    rw [hb, he]
    rfl
  obtain ⟨g1, g2⟩ := C113_refuted_remove h4 h8 k1 d1 (by rw [hf]; decide) (Or.inl (by rw [hb]; decide))
  rw [hb, he] at g2
  exact ⟨m2, m3, k1, (C113_added h2 canonB (by rw [hn1]; decide) (by omega) dataB_ne h3).mpr (Or.inl rfl),
    List.mem_map.mpr ⟨d, g1, hf⟩, g2⟩

/-- `FILENAME.TXT` -/
def nameFull : Bytes := [0x46, 0x49, 0x4c, 0x45, 0x4e, 0x41, 0x4d, 0x45, 0x2e, 0x54, 0x58, 0x54]

/-- Concrete case: `FILENAME.TXT` is found, also after `B` was added. -/
example : ∃ m1, AImg.writeFile nameFull dataA (mountRec sdH sdDisk []) = (.ok (), m1) ∧
    ∀ m2, AImg.writeFile nameB dataB m1 = (.ok (), m2) → m2.DosHas (nameFull.take 8) (nameFull.drop 9) := by
  have hlen : (pieces sdH dataA).length = sectorsNeeded sdH dataA.length := needed_eq mounted_sd dataA
  obtain ⟨m1, ds1, L1, L2, order, e, h1, h2, h3, h4, h5, h6, h7, _⟩ :=
    mounted_write mounted_sd (name := nameFull) (data := dataA) dataA_ne (by decide) (by decide) (by decide)
      (by show (pieces sdH _).length ≤ (freePool sdH sdDisk).length
          rw [hlen, sdDisk_pool, dataA_length]; decide)
  refine ⟨m1, h1, ?_⟩
  intro m2 hw
  obtain ⟨_, _, _, _, _, _, d, d1, d2, d3⟩ := added_entries mounted_sd (name := nameFull) (by decide) (by decide) (by decide) dataA_ne h1
  have hL : L1 = [] ∧ L2 = [] := by
    have : ([] : List (Bytes × Except Err Bytes)) = L1 ++ L2 := h4
    exact List.append_eq_nil_iff.mp this.symm
  rw [hL.1, hL.2, List.nil_append] at h5
  have hn1 : m1.names = [nameFull] := by
    show m1.files.map ADirent.filename = _
    rw [← listing_names, h5]
    decide
  have hl : m1.files.length = 1 := by
    have := congrArg List.length hn1
    unfold AImg.names at this
    rw [List.length_map] at this
    exact this
  have hb : d.basename = nameFull.take 8 := d2.trans (by decide)
  have he : d.ext = nameFull.drop 9 := d3.trans (by decide)
  have hr : ReachBut d.filename m1 m2 := by
    have : m2 = (Op.run (.write nameB dataB) m1).2 := (congrArg Prod.snd hw).symm
    rw [this]
    exact .step _ .start ⟨dataB_ne, canonB.2, by omega, by rw [hn1]; decide⟩ (fun h => by cases h)
  have := C113_partial h2 d1 (by rw [hb]; decide) (by rw [he]; decide) hr
  rwa [hb, he] at this

end Atr
