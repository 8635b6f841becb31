import Verif.Lemmas.AtariMounted
/-! # Operations outside the allowed ones: big images, empty data, deleted names, full directories -/
namespace Atr

/-! ### shredding more than 1279 sectors -/

theorem shredLoop_append (fill : UInt8) (map : List Bool) (js : List Nat) : ∀ (is : List Nat) (m m' : AImg),
    AImg.shredLoop fill map is m = (.ok (), m') → AImg.shredLoop fill map (is ++ js) m = AImg.shredLoop fill map js m' := by
  intro is
  induction is with
  | nil => intro m m' h; injection h with _ h; subst h; rfl
  | cons i is ih =>
    intro m m' h
    rw [List.cons_append]
    unfold AImg.shredLoop at h
    conv => lhs; unfold AImg.shredLoop
    cases hp : m.hdr.getPos i with
    | error e => rw [hp] at h; cases h
    | ok q =>
      obtain ⟨pos, size⟩ := q
      rw [hp] at h
      simp only at h ⊢
      cases hm : map[i]? with
      | none => rw [hm] at h; cases h
      | some v => cases v <;> (rw [hm] at h; exact ih _ _ h)

theorem shredBody_big {h b ds} (c : Consistent h b ds) (fill : Nat) (hmax : 1280 ≤ h.maxSectors) :
    ∃ b', Shredded h b b' (UInt8.ofNat fill) ∧
      AImg.shredBody fill (mountRec h b ds) = (.error .indexError, { mountRec h b ds with bytes := b' }) := by
  have g := c.geom
  have hss := c.sectorSize
  have hm := length_freeMap g hss c.size
  have hlab := g.label
  obtain ⟨b', q1, q2, q3, q4⟩ := shredLoop_spec (h := h) (UInt8.ofNat fill) (freeMap h b ++ List.replicate 560 false) (by omega)
    (List.range' h.startingSectorLabel 1279) (mountRec h b ds) rfl g List.nodup_range'
    (by
      intro i hi
      rw [List.mem_range'_1] at hi
      rw [List.length_append, List.length_replicate, hm]; omega)
    (by
      intro i hi
      exact (c.free i ((padMap_true c i).mp hi)).data g)
  have hmem : ∀ s, IsFree h b s → s ∈ List.range' h.startingSectorLabel 1279 := by
    intro s hs
    obtain ⟨u1, u2, u3, _⟩ := c.free s hs
    rw [List.mem_range'_1]
    omega
  have hsplit : List.range' h.startingSectorLabel h.maxSectors = List.range' h.startingSectorLabel 1279 ++
      1280 :: List.range' 1281 (h.maxSectors - 1280) := by
    have e1 : h.maxSectors = 1279 + (1 + (h.maxSectors - 1280)) := by omega
    generalize h.maxSectors - 1280 = k at e1 ⊢
    rw [hlab, e1, ← List.range'_append_1, Nat.add_comm 1 k, show 1 + 1279 = 1280 from rfl, List.range'_succ (s := 1280) (n := k)]
  refine ⟨b', ⟨q2, ?_, ?_⟩, ?_⟩
  · intro s hs
    exact q3 s (hmem s hs) ((padMap_true c s).mpr hs)
  · intro k hk
    apply q4
    intro s _ hst
    exact hk s ((padMap_true c s).mp hst)
  · unfold AImg.shredBody
    rw [getVtocObject_eq c]
    show AImg.shredLoop _ _ (List.range' h.startingSectorLabel h.maxSectors) _ = _
    rw [hsplit, shredLoop_append _ _ _ _ _ _ q1]
    have hp := AHeader.getPos_data g (s := 1280) (by have := g.ni; omega) hmax
    have hp' : ({ mountRec h b ds with bytes := b' } : AImg).hdr.getPos 1280 = .ok (h.dpos 1280, h.sectorSize) := hp
    unfold AImg.shredLoop
    rw [hp']
    simp only
    rw [List.getElem?_eq_none (by rw [List.length_append, List.length_replicate, hm]; omega)]

theorem shred_big {h b ds} (c : Consistent h b ds) (fill : Nat) (hmax : 1280 ≤ h.maxSectors) :
    ∃ b', Shredded h b b' (UInt8.ofNat fill) ∧ Consistent h b' ds ∧
      AImg.shred fill (mountRec h b ds) = (.error .indexError, mountRec h b' ds) := by
  obtain ⟨b', w, hbody⟩ := shredBody_big c fill hmax
  obtain ⟨p1, _, _⟩ := shred_preserves c w
  refine ⟨b', w, p1, ?_⟩
  unfold AImg.shred AImg.transaction
  rw [hbody]
  simp only [Err.isAtr, Bool.false_eq_true, if_false]
  rw [getMetadata_mount p1.toLoose]

/-! ### writing no data -/

/-- the directory entry written for a file without data -/
def emptyEntry (name : Bytes) (idx : Nat) : ADirent :=
  { ADirent.setValues name idx with numSectors := 0, startingSector := -1 }

theorem emptyEntry_insane {h : AHeader} {n : Nat} (g : h.Geom n) (hmax : h.maxSectors < 65535) (name : Bytes) (idx i : Nat) :
    ((emptyEntry name idx).reread h i).isSane = false ∧ ((emptyEntry name idx).reread h i).inUse = true := by
  have hu : (emptyEntry name idx).inUse = true := by
    unfold emptyEntry; rw [setValues_eq]
  have hv : h.sectorIsValid 65535 = false := by
    cases hc : h.sectorIsValid 65535 with
    | false => rfl
    | true => have := ((AHeader.sectorIsValid_iff g 65535).mp hc).2; omega
  refine ⟨?_, hu⟩
  unfold ADirent.reread
  simp only [ADirent.sanityCheck, hu]
  have : ((emptyEntry name idx).startingSector % 65536).toNat = 65535 := by
    show ((-1 : Int) % 65536).toNat = 65535
    decide
  rw [this, hv]
  simp

theorem write_empty {h b ds} (c : Consistent h b ds) (name : Bytes) (hidx : getFreeDirent ds < 64) (hmax : h.maxSectors < 65535) :
    ∃ b', AImg.writeFile name [] (mountRec h b ds) = (.error .invalidDiskImage,
        { mountRec h b' (setDirent ds (getFreeDirent ds) ((emptyEntry name (getFreeDirent ds)).reread h (getFreeDirent ds)))
          with allSane := false }) ∧
      AImg.open b' = .error .invalidDiskImage := by
  have g := c.geom
  have hss := c.sectorSize
  have d360 : h.DataSec 360 := dataSec_of g (by omega) (by have := c.size; omega)
  have hl360 := length_sec g d360
  have hm := length_freeMap g hss c.size
  have hml : (freeMap h b ++ List.replicate 560 false).length = 1280 := by rw [List.length_append, List.length_replicate, hm]
  obtain ⟨s360, e1, e2, e3⟩ := calcBitmap_eq (h := h) (m := mountRec h b ds) rfl g hss c.size hml
  obtain ⟨fs1, fs2, fs3⟩ := getFreeDirent_spec ds
  generalize hi : getFreeDirent ds = idx at *
  generalize hnd : emptyEntry name idx = nd
  have hins := emptyEntry_insane g hmax name idx idx
  rw [hnd] at hins
  have hlen_ds : 16 * (setDirent ds idx nd).length ≤ 8 * h.sectorSize := by
    rw [length_setDirent fs1]
    have := c.dirLen
    omega
  have h16 : 16 ∣ h.sectorSize := by rcases hss with h | h <;> rw [h] <;> decide
  obtain ⟨z, q1, q2, q3, q4⟩ := calcSectors_spec h16 (by omega) ((setDirent ds idx nd).map ADirent.encode)
    (by intro x hx; obtain ⟨d, _, rfl⟩ := List.mem_map.mp hx; simp)
  have hq := calcSectors_le c.toLoose hlen_ds
  generalize hcs : calcSectors (WSector.blank h.sectorSize) ((setDirent ds idx nd).map ADirent.encode) = ws at q2 q3 q4 hq
  obtain ⟨w1, w2, w3, hcom⟩ := commit_spec (sl := []) (s360 := s360) g hss c.size (length_newVtoc hl360 hss hml) ⟨e1, e2⟩
    (by simp) (by simp) q3 hq
  have hdirs : calcDirSectors h (setDirent ds idx nd) = numberDirSectors 361 ws := by rw [calcDirSectors, hcs]
  have hbody : AImg.writeBody name [] (mountRec h b ds) = (.ok (), { mountRec h b ds with
      bytes := commit h b (newVtoc h b (freeMap h b ++ List.replicate 560 false)) [] s360 (numberDirSectors 361 ws) }) := by
    have hfit := d360.fit g
    have hnv := length_newVtoc hl360 hss hml
    have hlen1 := length_splice b (newVtoc h b (freeMap h b ++ List.replicate 560 false)) (h.dpos 360) (by omega)
    have g1 : h.Geom (splice b (h.dpos 360) (newVtoc h b (freeMap h b ++ List.replicate 560 false))).length := by rw [hlen1]; exact g
    unfold AImg.writeBody
    rw [getDirectory_mount c]
    simp only [buildSectors, if_true]
    rw [getVtocObject_eq c]
    simp only [List.length_nil, reserve]
    rw [e3]
    have hhdr : (mountRec h b ds).hdr = h := rfl
    have hbytes : (mountRec h b ds).bytes = b := rfl
    have hdirs' := hdirs
    rw [← hnd] at hdirs'
    simp only [emptyEntry] at hdirs'
    have hnil : ∀ m : AImg, AImg.writeSectors [] m = (.ok (), m) := fun _ => rfl
    simp only [linkSectors, firstSector, hnil, List.length_nil, hi, hhdr, hbytes, hdirs']
    rw [writeSectors_eq [s360] _ g1 w2]
    simp only
    have g3 : h.Geom (writeAll h (splice b (h.dpos 360) (newVtoc h b (freeMap h b ++ List.replicate 560 false))) [s360]).length := by
      rw [length_writeAll _ _ g1 w2]; exact g1
    rw [writeSectors_eq (numberDirSectors 361 ws) _ g3 w3]
    rw [commit, writeAll_append, writeAll_append]
    rfl
  generalize commit h b (newVtoc h b (freeMap h b ++ List.replicate 560 false)) [] s360 (numberDirSectors 361 ws) = b' at *
  rw [← hdirs] at hcom
  obtain ⟨fm1, fm2⟩ := freeMap_after c.toLoose hcom hml
  obtain ⟨a1, a2, a3⟩ := dir_after c hcom hlen_ds (ds' := setDirent ds idx (nd.reread h idx))
    (by rw [length_setDirent fs1, length_setDirent fs1]) (by rw [length_setDirent fs1]; omega) (by simp)
    (by
      intro i r d hr hd
      rw [getElem?_setDirent fs1] at hr hd
      by_cases hi : i = idx
      · rw [if_pos hi] at hr hd
        injection hr with hr; injection hd with hd
        rw [← hr, ← hd, hi]
        exact ⟨parse_encode _ _ _, Or.inl hins.2⟩
      · rw [if_neg hi] at hr hd
        rw [hd] at hr; injection hr with hr
        rw [← hr]
        obtain ⟨_, _, _, h4⟩ := (scanDir_ok c.dir).2 i d hd
        exact ⟨c.stable i d hd, h4⟩)
  have hsc : Scans h b' (setDirent ds idx (nd.reread h idx)) :=
    ⟨a1, c.sectorSize, c.size, c.ed, by rw [fm2]; exact c.vtocCode, a2⟩
  have hbad : ¬ ((setDirent ds idx (nd.reread h idx)).filter (·.inUse)).all (·.isSane) = true := by
    intro hall
    rw [List.all_eq_true] at hall
    have := hall (nd.reread h idx) (List.mem_filter.mpr ⟨?_, hins.2⟩)
    · rw [hins.1] at this; cases this
    · apply List.mem_of_getElem? (i := idx)
      rw [getElem?_setDirent fs1, if_pos rfl]
  refine ⟨b', ?_, ?_⟩
  · unfold AImg.writeFile AImg.transaction
    rw [hbody]
    simp only
    rw [getMetadata_scan hsc rfl rfl rfl (Or.inl rfl), if_neg hbad]
  · rw [open_scan hsc, if_neg hbad]

/-! ### deleting a name that only a deleted entry has -/

/-- consistency only depends on the directory, the bitmap and the allocated user sectors -/
theorem Consistent.same {h b b' ds} (c : Consistent h b ds) (hlen : b'.length = b.length) (ho : openHeader b' = .ok h)
    (hd : scanDir h 0 (rawEntries h b') = .ok ds)
    (ht : ∀ (i : Nat) (e : Bytes), ds.length ≤ i → 16 * i % h.sectorSize = 0 → (rawEntries h b')[i]? = some e → e.head? = some 0)
    (hv : (sec h b' 360).head? = (sec h b 360).head?) (hf : ∀ s, IsFree h b' s ↔ IsFree h b s)
    (hs : ∀ s, UserSec h s → ¬ IsFree h b s → sec h b' s = sec h b s) :
    Consistent h b' ds ∧ ∀ e ∈ ds, e.inUse = true → e.getFile h b' = e.getFile h b := by
  have g := c.geom
  have hframe : ∀ e ∈ ds, e.inUse = true → ∃ l, e.readChain h b = .ok l ∧ e.readChain h b' = .ok l ∧ byteOrder l ≠ [] ∧
      (l.map (·.1)).Nodup ∧ (∀ x ∈ l, UserSec h x.1 ∧ ¬ IsFree h b x.1 ∧ x.2.2 ≤ h.sectorSize) ∧
      e.getFile h b' = e.getFile h b := by
    intro e he hu
    obtain ⟨l, l1, l2, l3, l4⟩ := c.chains e he hu
    have hsec : ∀ x ∈ l, sec h b' x.1 = sec h b x.1 := fun x hx => hs _ (l4 x hx).1 (l4 x hx).2.1
    refine ⟨l, l1, readChain_frame g l1 (fun x hx => (l4 x hx).1.data g) hsec, l2, l3, l4, ?_⟩
    exact getFile_frame g hlen l1 (fun x hx => ⟨(l4 x hx).1.data g, (l4 x hx).2.2⟩) l2 hsec
  refine ⟨?_, ?_⟩
  · refine { opens := ho, sectorSize := c.sectorSize, size := c.size, ed := c.ed, vtocCode := by rw [hv]; exact c.vtocCode,
             dir := hd, term := ht, stable := c.stable, chains := ?_, disjoint := ?_,
             free := fun s hs => c.free s ((hf s).mp hs), first := c.first }
    · intro e he hu
      obtain ⟨l, l1, l2, l3, l4, l5, _⟩ := hframe e he hu
      exact ⟨l, l2, l3, l4, fun x hx => ⟨(l5 x hx).1, fun hff => (l5 x hx).2.1 ((hf _).mp hff), (l5 x hx).2.2⟩⟩
    · intro j k e f he hff hjk heu hfu a a' ha ha'
      obtain ⟨l2, m1, m2, _⟩ := hframe e (List.mem_of_getElem? he) heu
      obtain ⟨l3, m3, m4, _⟩ := hframe f (List.mem_of_getElem? hff) hfu
      rw [m2] at ha; injection ha with ha; subst ha
      rw [m4] at ha'; injection ha' with ha'; subst ha'
      exact c.disjoint j k e f he hff hjk heu hfu _ _ m1 m3
  · intro e he hu
    obtain ⟨_, _, _, _, _, _, l3⟩ := hframe e he hu
    exact l3

/-- deleting the same file twice: the second call succeeds as well -/
theorem delete_twice {h b ds} (c : Consistent h b ds) {i : Nat} {d : ADirent} (hd : ds[i]? = some d) (hu : d.inUse = true) :
    ∃ b1 b2 ds1, Consistent h b1 ds1 ∧ Consistent h b2 ds1 ∧
      AImg.deleteFile d.filename (mountRec h b ds) = (.ok (), mountRec h b1 ds1) ∧
      d.filename ∉ (mountRec h b1 ds1).names ∧
      AImg.deleteFile d.filename (mountRec h b1 ds1) = (.ok (), mountRec h b2 ds1) := by
  have g := c.geom
  obtain ⟨l, hl, l2, l3, l4⟩ := c.chains d (List.mem_of_getElem? hd) hu
  obtain ⟨b1, map1, w1, c1, del1, free1, _⟩ := deleteFile_ok c hd hu hl
  have hi := (List.getElem?_eq_some_iff.mp hd).1
  have hset : ∀ (j : Nat), (ds.set i (deadEntry d))[j]? = if j = i then some (deadEntry d) else ds[j]? := by
    intro j
    rw [List.getElem?_set]
    by_cases hj : i = j
    · subst hj; simp [hi]
    · simp [hj, Ne.symm hj]
  have hfn : (deadEntry d).filename = d.filename := rfl
  have hfind : findDirentIdx (ds.set i (deadEntry d)) (deadEntry d).filename = .ok (i, deadEntry d) := by
    have : (ds.set i (deadEntry d)).findIdx? (fun e => e.filename == (deadEntry d).filename) = some i := by
      rw [List.findIdx?_eq_some_iff_getElem]
      refine ⟨by simpa using hi, by simp, ?_⟩
      intro j hj
      rw [List.getElem_set_ne (by omega), hfn]
      have := c.first i j d ds[j] hd (List.getElem?_eq_getElem _) hu hj
      simpa using this
    unfold findDirentIdx
    rw [this]
    simp only
    rw [List.getD_eq_getElem?_getD, hset, if_pos rfl]; rfl
  have hl1 : (deadEntry d).readChain h b1 = .ok l := by
    have e1 : d.readChain h b1 = .ok l := by
      apply readChain_frame g hl (fun x hx => (l4 x hx).1.data g)
      intro x hx
      exact sec_after c.toLoose w1.comm w1.slots (l4 x hx).1 (by simp)
    have hp : ∀ st raw, (deadEntry d).processRaw st raw = d.processRaw st raw := fun _ _ => rfl
    have hr : ∀ st, (deadEntry d).readSector h b1 st = d.readSector h b1 st := fun _ => rfl
    have hlo : ∀ fuel st, (deadEntry d).readLoop h b1 fuel st = d.readLoop h b1 fuel st := by
      intro fuel
      induction fuel with
      | zero => intro st; rfl
      | succ f ih => intro st; simp only [ADirent.readLoop, hr, ih]
    obtain ⟨r1, r2, r3⟩ := readChain_ok e1
    unfold ADirent.readChain
    rw [hlo]
    have hst : (deadEntry d).startingSector = d.startingSector := rfl
    have hsa : (deadEntry d).isSane = true := rfl
    rw [hst, hsa, if_neg (by decide), if_neg r2]
    exact r3
  obtain ⟨b2, map2, w2, body2⟩ := deleteBody_ok c1 hl1 hfind (fun x hx => (l4 x hx).1.2.2.1)
  obtain ⟨fm1, fm2⟩ := freeMap_after c1.toLoose w2.comm w2.mlen
  have hm := length_freeMap c1.geom c1.sectorSize c1.size
  have hfree : ∀ s, IsFree h b2 s ↔ IsFree h b1 s := by
    intro s
    unfold IsFree
    rw [fm1, List.getElem?_take, w2.bits]
    by_cases hs : s < 720
    · rw [if_pos hs, List.getElem?_append_left (by omega)]
      by_cases ho : s ∈ l.map (·.1)
      · rw [if_pos ho]
        have : IsFree h b1 s := (free1 s).mpr (Or.inr ⟨ho, hs⟩)
        unfold IsFree at this
        simp [this]
      · rw [if_neg ho]
    · rw [if_neg hs, List.getElem?_eq_none (by omega)]
  have hsame : (ds.set i (deadEntry d)).set i (deadEntry d).markDeleted = ds.set i (deadEntry d).markDeleted := List.set_set ..
  have r := deadEntry_reread (c1.stable i (deadEntry d) (by rw [hset, if_pos rfl]))
  have hdd : deadEntry (deadEntry d) = deadEntry d := rfl
  obtain ⟨a1, a2, a3⟩ := dir_after c1 w2.comm (ds' := ds.set i (deadEntry d)) (by rw [List.length_set]; exact c1.dirLen)
    (by simp) (by simp) (by simp)
    (by
      intro j r' e hr he
      rw [hsame, List.getElem?_set] at hr
      rw [hset] at he
      by_cases hj : j = i
      · subst hj
        simp [hi] at hr
        simp at he
        rw [← hr, ← he]; rw [hdd] at r; exact ⟨r.1, Or.inr r.2.2.1⟩
      · rw [if_neg hj] at he
        rw [if_neg (Ne.symm hj), he] at hr; injection hr with hr; rw [← hr]
        obtain ⟨_, _, _, h4⟩ := (scanDir_ok c.dir).2 j e he
        exact ⟨c.stable j e he, h4⟩)
  have c2 := (c1.same w2.comm.len a1 a2 a3 fm2 hfree (by
    intro s hs _
    exact sec_after c1.toLoose w2.comm w2.slots hs (by simp))).1
  refine ⟨b1, b2, _, c1, c2, del1, ?_, ?_⟩
  · intro hn
    obtain ⟨e, he, hen⟩ := List.mem_map.mp hn
    obtain ⟨he1, he2⟩ := mem_files.mp he
    obtain ⟨j, hj⟩ := List.getElem?_of_mem he1
    rw [hset] at hj
    by_cases hji : j = i
    · rw [if_pos hji] at hj; injection hj with hj; rw [← hj] at he2; cases he2
    · rw [if_neg hji] at hj
      rcases Nat.lt_or_gt_of_ne hji with hlt | hlt
      · exact c.first i j d e hd hj hu hlt hen
      · exact c.first j i e d hj hd he2 hlt hen.symm
  · exact transaction_ok c2 body2

/-! ### the free count in the VTOC -/

theorem mounted_unused {m m' : AImg} {ds ds'} (hm : Mounted m ds) (hm' : Mounted m' ds') (hh : m'.hdr = m.hdr)
    (h360 : slice (sec m'.hdr m'.bytes 360) 0 10 = slice (sec m.hdr m.bytes 360) 0 10)
    (h1024 : m.hdr.imageSize = 133120 → sec m'.hdr m'.bytes 1024 = sec m.hdr m.bytes 1024) : m'.unused = m.unused ∧ m'.total = m.total := by
  have key : ∀ i, i < 10 → (sec m'.hdr m'.bytes 360).getD i 0 = (sec m.hdr m.bytes 360).getD i 0 := by
    intro i hi
    have := congrArg (fun l => l[i]?) h360
    simp only [getElem?_slice, Nat.zero_add, if_pos hi] at this
    rw [List.getD_eq_getElem?_getD, List.getD_eq_getElem?_getD, this]
  rw [hm.eq, hm'.eq]
  unfold mountRec
  simp only
  rw [key 1 (by omega), key 2 (by omega), key 3 (by omega), key 4 (by omega), hh]
  refine ⟨?_, rfl⟩
  by_cases he : m.hdr.imageSize = 133120
  · rw [if_pos he, if_pos he, ← hh, h1024 he, hh]
  · rw [if_neg he, if_neg he]

end Atr
