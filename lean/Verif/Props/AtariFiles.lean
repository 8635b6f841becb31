import Verif.Lemmas.AtariMounted
/-!
# C01-C04, C06, C07, C09: writing, deleting, shredding on consistent Atari DOS volumes

`Mounted m ds` (`Verif/Spec/Atari.lean`): `m` is what opening its bytes gives, and the volume is consistent.
The conclusions `Mounted m' …` include that re-opening the resulting bytes gives exactly `m'`.
-/
namespace Atr

/-- a concrete mounted volume: the blank single density template -/
theorem mounted_sd : Mounted (mountRec sdH sdDisk []) [] := mounted_mountRec sdDisk_consistent
/-- a concrete mounted volume: the blank double density template -/
theorem mounted_dd : Mounted (mountRec ddH ddDisk []) [] := mounted_mountRec ddDisk_consistent

/-- `A.TXT` -/
def nameA : Bytes := [0x41, 0x2e, 0x54, 0x58, 0x54]
/-- `B` -/
def nameB : Bytes := [0x42]
/-- 300 bytes -/
def dataA : Bytes := List.replicate 300 7
/-- 1000 bytes -/
def dataB : Bytes := List.replicate 1000 8
theorem dataA_length : dataA.length = 300 := List.length_replicate
theorem dataB_length : dataB.length = 1000 := List.length_replicate
theorem dataA_ne : dataA ≠ [] := fun h => by have := dataA_length; rw [h] at this; cases this
theorem dataB_ne : dataB ≠ [] := fun h => by have := dataB_length; rw [h] at this; cases this

theorem needed_eq {m : AImg} {ds} (hm : Mounted m ds) (data : Bytes) :
    (pieces m.hdr data).length = sectorsNeeded m.hdr data.length := by
  have := hm.2.sectorSize
  rw [pieces, length_chunks _ (by omega)]; rfl

/-- **C01.** A successful `write_file` under a canonical 8.3 name: the file is listed and reads back exactly the data,
also after re-opening the image. -/
theorem C01_write_then_read {m m' : AImg} {ds} {name data : Bytes} (hm : Mounted m ds) (hc : Canon83 name)
    (hnew : name ∉ m.names) (hslot : m.files.length < 64) (hne : data ≠ [])
    (hw : AImg.writeFile name data m = (.ok (), m')) :
    m'.findFile name = .ok data ∧ name ∈ m'.names ∧ AImg.open m'.bytes = .ok m' := by
  by_cases hk : (pieces m.hdr data).length ≤ (freePool m.hdr m.bytes).length
  · obtain ⟨m1, ds1, L1, L2, order, e, h1, h2, h3, h4, h5, _⟩ := mounted_write hm hne hc.2 hslot (by rw [hc.1]; exact hnew) hk
    rw [h1] at hw; injection hw with _ hw; subst hw
    rw [hc.1] at h5
    have hmem : (name, Except.ok data) ∈ m1.listing := by rw [h5]; simp
    refine ⟨mounted_find h2 hmem, ?_, h2.1⟩
    show name ∈ m1.files.map ADirent.filename
    rw [← listing_names]
    exact List.mem_map_of_mem hmem
  · rw [mounted_full hm (by omega)] at hw
    injection hw with hw _; cases hw

/-- C01 for names that are not canonical (longer than 8.3, trailing blanks): the file is stored under `norm83 name`. -/
theorem C01_write_any_name {m m' : AImg} {ds} {name data : Bytes} (hm : Mounted m ds) (h0 : (0 : UInt8) ∉ name)
    (hnew : norm83 name ∉ m.names) (hslot : m.files.length < 64) (hne : data ≠ [])
    (hw : AImg.writeFile name data m = (.ok (), m')) :
    m'.findFile (norm83 name) = .ok data ∧ norm83 name ∈ m'.names := by
  by_cases hk : (pieces m.hdr data).length ≤ (freePool m.hdr m.bytes).length
  · obtain ⟨m1, ds1, L1, L2, order, e, h1, h2, h3, h4, h5, _⟩ := mounted_write hm hne h0 hslot hnew hk
    rw [h1] at hw; injection hw with _ hw; subst hw
    have hmem : (norm83 name, Except.ok data) ∈ m1.listing := by rw [h5]; simp
    refine ⟨mounted_find h2 hmem, ?_⟩
    show _ ∈ m1.files.map ADirent.filename
    rw [← listing_names]
    exact List.mem_map_of_mem hmem
  · rw [mounted_full hm (by omega)] at hw
    injection hw with hw _; cases hw

/-- **C02.** A successful `write_file` inserts one entry in the listing and leaves all the others alone: same names, same
order, same contents. -/
theorem C02_write_frame {m m' : AImg} {ds} {name data : Bytes} (hm : Mounted m ds) (hc : Canon83 name)
    (hnew : name ∉ m.names) (hslot : m.files.length < 64) (hne : data ≠ [])
    (hw : AImg.writeFile name data m = (.ok (), m')) :
    (∃ L1 L2, m.listing = L1 ++ L2 ∧ m'.listing = L1 ++ (name, .ok data) :: L2) ∧
    ∀ other, other ≠ name → m'.findFile other = m.findFile other := by
  by_cases hk : (pieces m.hdr data).length ≤ (freePool m.hdr m.bytes).length
  · obtain ⟨m1, ds1, L1, L2, order, e, h1, h2, h3, h4, h5, _⟩ := mounted_write hm hne hc.2 hslot (by rw [hc.1]; exact hnew) hk
    rw [h1] at hw; injection hw with _ hw; subst hw
    rw [hc.1] at h5
    exact ⟨⟨L1, L2, h4, h5⟩, fun other ho => find_of_listing hm h2 h4 h5 ho⟩
  · rw [mounted_full hm (by omega)] at hw
    injection hw with hw _; cases hw

/-- The hypotheses of C01 and C02 can be met with any data that fits, and the write does succeed then. -/
theorem C01_write_succeeds {m : AImg} {ds} {name data : Bytes} (hm : Mounted m ds) (hc : Canon83 name)
    (hnew : name ∉ m.names) (hslot : m.files.length < 64) (hne : data ≠ [])
    (hfit : sectorsNeeded m.hdr data.length ≤ (freePool m.hdr m.bytes).length) :
    ∃ m' ds', AImg.writeFile name data m = (.ok (), m') ∧ Mounted m' ds' ∧ m'.names.length = m.names.length + 1 := by
  obtain ⟨m1, ds1, L1, L2, order, e, h1, h2, h3, h4, h5, _⟩ := mounted_write hm hne hc.2 hslot (by rw [hc.1]; exact hnew)
    (by rw [needed_eq hm]; exact hfit)
  refine ⟨m1, ds1, h1, h2, ?_⟩
  unfold AImg.names
  rw [← listing_names, ← listing_names, h4, h5]
  simp; omega

theorem canonA : Canon83 nameA := ⟨by decide, by decide⟩
theorem canonB : Canon83 nameB := ⟨by decide, by decide⟩

/-- Concrete case: two files are written to the blank disk, the first reads back after the second was written. -/
theorem two_files : ∃ m1 m2 ds1 ds2,
    AImg.writeFile nameA dataA (mountRec sdH sdDisk []) = (.ok (), m1) ∧ Mounted m1 ds1 ∧
    AImg.writeFile nameB dataB m1 = (.ok (), m2) ∧ Mounted m2 ds2 ∧ m1.hdr = sdH ∧ m2.hdr = sdH ∧
    m1.listing = [(nameA, .ok dataA)] ∧ m2.findFile nameA = .ok dataA ∧
    m2.findFile nameB = .ok dataB ∧ nameA ∈ m2.names ∧ m2.files.length = 2 := by
  have hlen : ∀ x : Bytes, (pieces sdH x).length = (x.length + 124) / 125 := by
    intro x
    exact needed_eq mounted_sd x
  obtain ⟨m1, ds1, L1, L2, order, e, h1, h2, h3, h4, h5, h6, h7, _⟩ :=
    mounted_write mounted_sd (name := nameA) (data := dataA) dataA_ne canonA.2 (by decide) (by decide)
      (by show (pieces sdH _).length ≤ (freePool sdH sdDisk).length
          rw [hlen, sdDisk_pool, dataA_length]; decide)
  have hh : m1.hdr = sdH := h3
  have hpool : (freePool m1.hdr m1.bytes).length = 704 := by
    rw [h7]
    show ((freePool sdH sdDisk).drop (pieces sdH _).length).length = 704
    rw [List.length_drop, sdDisk_pool, hlen, dataA_length]
  have hL : L1 = [] ∧ L2 = [] := by
    have : ([] : List (Bytes × Except Err Bytes)) = L1 ++ L2 := h4
    exact List.append_eq_nil_iff.mp this.symm
  rw [hL.1, hL.2, canonA.1, List.nil_append] at h5
  have hn1 : m1.files.map ADirent.filename = [nameA] := by rw [← listing_names, h5]; rfl
  have hfl : m1.files.length = 1 := by rw [← List.length_map (f := ADirent.filename), hn1]; rfl
  obtain ⟨m2, ds2, K1, K2, order2, e2, k1, k2, k3, k4, k5, _⟩ :=
    mounted_write h2 (name := nameB) (data := dataB) dataB_ne canonB.2 (by omega)
      (by rw [hn1]; decide) (by rw [hpool, hh, hlen, dataB_length]; decide)
  rw [canonB.1] at k5
  refine ⟨m1, m2, ds1, ds2, h1, h2, k1, k2, hh, by rw [k3, hh], h5, ?_, ?_, ?_, ?_⟩
  · rw [find_of_listing h2 k2 k4 k5 (by decide)]
    exact mounted_find h2 (by rw [h5]; exact List.mem_singleton_self _)
  · exact mounted_find k2 (by rw [k5]; exact List.mem_append_right _ List.mem_cons_self)
  · show nameA ∈ m2.files.map ADirent.filename
    rw [← listing_names, k5]
    have : nameA ∈ (K1 ++ K2).map (·.1) := by rw [← k4, listing_names, hn1]; simp
    simp only [List.map_append, List.map_cons, List.mem_append, List.mem_cons] at *
    rcases this with h | h
    · exact Or.inl h
    · exact Or.inr (Or.inr h)
  · rw [← List.length_map (f := ADirent.filename), ← listing_names, k5]
    have : (K1 ++ K2).length = 1 := by rw [← k4, h5]; rfl
    simp at this ⊢; omega

example : ∃ m', AImg.writeFile nameA dataA (mountRec sdH sdDisk []) = (.ok (), m') ∧
    m'.findFile nameA = .ok dataA := by
  obtain ⟨m1, _, _, _, h, h2, _, _, _, _, h5, _⟩ := two_files
  exact ⟨m1, h, mounted_find h2 (by rw [h5]; exact List.mem_singleton_self _)⟩

/-- **C03.** `delete_file` of a live file succeeds; the name is gone, everything else is as before, and each sector of the
deleted file below 720 is free again. -/
theorem C03_delete {m : AImg} {ds} {name : Bytes} (hm : Mounted m ds) (hl : name ∈ m.names) :
    ∃ m' ds', AImg.deleteFile name m = (.ok (), m') ∧ Mounted m' ds' ∧
      m'.findFile name = .error .fileNotFound ∧ name ∉ m'.names ∧
      (∃ L1 L2 x, m.listing = L1 ++ (name, x) :: L2 ∧ m'.listing = L1 ++ L2) ∧
      (∀ other, other ≠ name → m'.findFile other = m.findFile other) ∧
      (∀ d ∈ m.files, d.filename = name → ∀ s ∈ m.sectorsOf d, s < 720 → IsFree m'.hdr m'.bytes s) ∧
      (∀ s, IsFree m.hdr m.bytes s → IsFree m'.hdr m'.bytes s) := by
  obtain ⟨m', ds', L1, L2, x, l, h1, h2, h3, h4, h5, ⟨d, hd, hdn, hdl⟩, h7, _⟩ := mounted_delete hm hl
  have hnd := mounted_nodup hm
  have hnot : name ∉ m'.files.map ADirent.filename := by
    rw [← listing_names, h5]
    rw [← listing_names, h4] at hnd
    simp only [List.map_append, List.map_cons] at hnd ⊢
    have := (List.perm_middle (a := name) (l₁ := L1.map (·.1)) (l₂ := L2.map (·.1))).nodup hnd
    exact (List.nodup_cons.mp this).1
  refine ⟨m', ds', h1, h2, (find_missing hnot).2, hnot, ⟨L1, L2, x, h4, h5⟩, ?_, ?_, ?_⟩
  · intro other ho
    exact (find_of_listing h2 hm h5 h4 ho).symm
  · intro d' hd' hn' s hs hlt
    have : d' = d := by
      have := hm.eq
      rw [this] at hd hd'
      exact files_unique hm.2 hd' hd (by rw [hn', hdn])
    subst this
    unfold AImg.sectorsOf at hs
    rw [hdl] at hs
    exact (h7 s).mpr (Or.inr ⟨hs, hlt⟩)
  · intro s hs
    exact (h7 s).mpr (Or.inl hs)

/-- C03 applies: deleting the first of two files of the disk built above. -/
example : ∃ m m', (∃ ds, Mounted m ds) ∧ AImg.deleteFile nameA m = (.ok (), m') ∧
    m'.findFile nameA = .error .fileNotFound ∧ m'.findFile nameB = .ok dataB := by
  obtain ⟨m1, m2, ds1, ds2, _, _, _, h4, _, _, _, _, h8, h9, _⟩ := two_files
  obtain ⟨m', _, k1, _, k3, _, _, k6, _⟩ := C03_delete h4 h9
  exact ⟨m2, m', ⟨ds2, h4⟩, k1, k3, by rw [k6 nameB (by decide)]; exact h8⟩

/-- **C04.** On a consistent volume `write_file` raises `NotEnoughSpaceOnDisk` exactly when the data needs more sectors
than are free, and then nothing at all has changed. (No condition on the name, the data or the directory.) -/
theorem C04_not_enough_space {m : AImg} {ds} (name data : Bytes) (hm : Mounted m ds) :
    ((AImg.writeFile name data m).1 = .error .notEnoughSpace ↔
      (freePool m.hdr m.bytes).length < sectorsNeeded m.hdr data.length) ∧
    ((AImg.writeFile name data m).1 = .error .notEnoughSpace → (AImg.writeFile name data m).2 = m) := by
  by_cases hk : (pieces m.hdr data).length ≤ (freePool m.hdr m.bytes).length
  · have hn : (AImg.writeFile name data m).1 ≠ .error .notEnoughSpace := by
      intro h
      apply mounted_not_full (name := name) hm hk (AImg.writeFile name data m).2
      rw [← h]
    refine ⟨⟨fun h => absurd h hn, fun h => ?_⟩, fun h => absurd h hn⟩
    rw [← needed_eq hm] at h; omega
  · have := mounted_full (name := name) hm (data := data) (by omega)
    rw [this]
    refine ⟨⟨fun _ => by rw [← needed_eq hm]; omega, fun _ => rfl⟩, fun _ => rfl⟩

/-- both cases occur on the blank disk: 707 sectors of 125 bytes fit, one byte more does not -/
example : (AImg.writeFile nameA (List.replicate 88376 1) (mountRec sdH sdDisk [])).1 = .error .notEnoughSpace ∧
    (AImg.writeFile nameA (List.replicate 88375 1) (mountRec sdH sdDisk [])).1 ≠ .error .notEnoughSpace := by
  constructor
  · rw [(C04_not_enough_space _ _ mounted_sd).1]
    show (freePool sdH sdDisk).length < sectorsNeeded sdH _
    rw [sdDisk_pool, List.length_replicate]; decide
  · intro h
    rw [(C04_not_enough_space _ _ mounted_sd).1] at h
    have h : (freePool sdH sdDisk).length < sectorsNeeded sdH _ := h
    rw [sdDisk_pool, List.length_replicate] at h
    revert h; decide

theorem freePool_ext {h : AHeader} {b b' : Bytes} (hl : (freeMap h b').length = (freeMap h b).length)
    (he : ∀ s, IsFree h b' s ↔ IsFree h b s) : freePool h b' = freePool h b := by
  unfold freePool
  have : freeMap h b' = freeMap h b := by
    apply List.ext_getElem?
    intro s
    have := he s
    unfold IsFree at this
    by_cases hs : s < (freeMap h b).length
    · rw [List.getElem?_eq_getElem hs, List.getElem?_eq_getElem (by omega)] at this ⊢
      simp only [Option.some.injEq] at this ⊢
      cases h1 : (freeMap h b)[s] <;> cases h2 : (freeMap h b')[s] <;> simp_all
    · rw [List.getElem?_eq_none (by omega), List.getElem?_eq_none (by omega)]
  rw [this]

/-- **C06.** A successful write takes exactly the `sectorsNeeded` lowest-numbered free sectors, in increasing order, as
the chain of the new file; the rest of the pool stays free; deleting the file restores the pool. -/
theorem C06_allocation {m m' : AImg} {ds} {name data : Bytes} (hm : Mounted m ds) (hc : Canon83 name)
    (hnew : name ∉ m.names) (hslot : m.files.length < 64) (hne : data ≠ [])
    (hw : AImg.writeFile name data m = (.ok (), m')) :
    (∃ d ∈ m'.files, d.filename = name ∧
      m'.sectorsOf d = (freePool m.hdr m.bytes).take (sectorsNeeded m.hdr data.length)) ∧
    (sectorsNeeded m.hdr data.length ≤ (freePool m.hdr m.bytes).length) ∧
    freePool m'.hdr m'.bytes = (freePool m.hdr m.bytes).drop (sectorsNeeded m.hdr data.length) ∧
    ∃ m'', AImg.deleteFile name m' = (.ok (), m'') ∧ freePool m''.hdr m''.bytes = freePool m.hdr m.bytes := by
  by_cases hk : (pieces m.hdr data).length ≤ (freePool m.hdr m.bytes).length
  · obtain ⟨m1, ds1, L1, L2, order, e, h1, h2, h3, h4, h5, h6, h7, h8, h9, ⟨l, h10, h11⟩, h12, _⟩ :=
      mounted_write hm hne hc.2 hslot (by rw [hc.1]; exact hnew) hk
    rw [h1] at hw; injection hw with _ hw; subst hw
    rw [hc.1] at h9
    have hlist : name ∈ m1.names := List.mem_map.mpr ⟨e, h8, h9⟩
    obtain ⟨m2, ds2, K1, K2, x, l2, k1, k2, k3, k4, k5, ⟨d, hd, hdn, hdl⟩, k7, _⟩ := mounted_delete h2 hlist
    have hde : d = e := by
      have := h2.eq
      rw [this] at hd h8
      exact files_unique h2.2 hd h8 (by rw [hdn, h9])
    subst hde
    rw [h10] at hdl; injection hdl with hdl; subst hdl
    refine ⟨⟨d, h8, h9, ?_⟩, by rw [← needed_eq hm]; exact hk, by rw [h7, needed_eq hm], m2, k1, ?_⟩
    · unfold AImg.sectorsOf
      rw [h10]
      simp only
      rw [h11, h6, needed_eq hm]
    · rw [k3, h3]
      rw [k3, h3] at k7
      rw [h3] at h12
      have g := hm.2.geom
      have hl1 := length_freeMap g hm.2.sectorSize hm.2.size
      have hg2 := k2.2.geom
      have hs2 := k2.2.sectorSize
      have hz2 := k2.2.size
      rw [k3, h3] at hg2 hs2 hz2
      have hl2 := length_freeMap hg2 hs2 hz2
      apply freePool_ext (by rw [hl1, hl2])
      intro s
      rw [k7, h12, h11]
      constructor
      · rintro (h | h)
        · exact h.1
        · rw [h6] at h
          exact (mem_freeList _ _).mp (List.mem_of_mem_take h.1)
      · intro h
        by_cases ho : s ∈ order
        · right
          refine ⟨ho, ?_⟩
          have := (List.getElem?_eq_some_iff.mp h).1
          omega
        · exact Or.inl ⟨h, ho⟩
  · rw [mounted_full hm (by omega)] at hw
    injection hw with hw _; cases hw

/-- C06 applies to the first write to the blank disk: three sectors for 300 bytes. -/
example : ∃ m', AImg.writeFile nameA dataA (mountRec sdH sdDisk []) = (.ok (), m') ∧
    (freePool m'.hdr m'.bytes).length = 704 := by
  obtain ⟨m1, _, _, _, h, _⟩ := two_files
  refine ⟨m1, h, ?_⟩
  have hs : sectorsNeeded sdH dataA.length = 3 := by rw [dataA_length]; decide
  have hp : freePool m1.hdr m1.bytes = (freePool sdH sdDisk).drop (sectorsNeeded sdH dataA.length) :=
    (C06_allocation mounted_sd canonA (by decide) (by decide) dataA_ne h).2.2.1
  rw [hp, hs, List.length_drop, sdDisk_pool]

theorem reach_mounted {m m' : AImg} {ds} (hm : Mounted m ds) (hr : Reach m m') : ∃ ds', Mounted m' ds' := by
  induction hr with
  | start => exact ⟨ds, hm⟩
  | @step m1 op _ ha ih =>
    obtain ⟨ds1, h1⟩ := ih
    cases op with
    | write name data =>
      obtain ⟨a1, a2, a3, a4⟩ := ha
      by_cases hk : (pieces m1.hdr data).length ≤ (freePool m1.hdr m1.bytes).length
      · obtain ⟨m2, ds2, _, _, _, _, h2, h3, _⟩ := mounted_write h1 a1 a2 a3 a4 hk
        show ∃ ds', Mounted (AImg.writeFile name data m1).2 ds'
        rw [h2]; exact ⟨ds2, h3⟩
      · show ∃ ds', Mounted (AImg.writeFile name data m1).2 ds'
        rw [mounted_full h1 (by omega)]; exact ⟨ds1, h1⟩
    | delete name =>
      show ∃ ds', Mounted (AImg.deleteFile name m1).2 ds'
      rcases ha with ha | ha
      · obtain ⟨m2, ds2, _, _, _, _, h2, h3, _⟩ := mounted_delete h1 ha
        rw [h2]; exact ⟨ds2, h3⟩
      · rw [mounted_missing h1 (ha ds1 h1.2.dir)]; exact ⟨ds1, h1⟩
    | shred fill =>
      obtain ⟨m2, h2, h3, _⟩ := mounted_shred h1 fill ha
      show ∃ ds', Mounted (AImg.shred fill m1).2 ds'
      rw [h2]; exact ⟨ds1, h3⟩

/-- **C07.** In every reachable state every listed file has a chain that can be read, without repeated sectors, consisting
of allocated sectors outside the boot sectors and 360-368; the chains of different files have no sector in common; and
the image can be re-opened. -/
theorem C07_no_cross_links {m m' : AImg} {ds} (hm : Mounted m ds) (hr : Reach m m') :
    AImg.open m'.bytes = .ok m' ∧ m'.names.Nodup ∧
    (∀ d ∈ m'.files, ∃ l, d.readChain m'.hdr m'.bytes = .ok l ∧ l ≠ [] ∧ m'.sectorsOf d = l.map (·.1)) ∧
    (∀ d ∈ m'.files, (m'.sectorsOf d).Nodup ∧ ∀ s ∈ m'.sectorsOf d,
      ¬ IsFree m'.hdr m'.bytes s ∧ 4 ≤ s ∧ s ≤ m'.hdr.maxSectors ∧ ¬ (360 ≤ s ∧ s ≤ 368)) ∧
    (∀ d ∈ m'.files, ∀ e ∈ m'.files, d.filename ≠ e.filename → ∀ s ∈ m'.sectorsOf d, s ∉ m'.sectorsOf e) := by
  obtain ⟨ds', hm'⟩ := reach_mounted hm hr
  have hc := hm'.2
  have hf : ∀ d, d ∈ m'.files ↔ d ∈ ds' ∧ d.inUse = true := by
    intro d
    have := mem_files (h := m'.hdr) (b := m'.bytes) (ds := ds') (d := d)
    rw [← hm'.eq] at this; exact this
  refine ⟨hm'.1, mounted_nodup hm', ?_, ?_, ?_⟩
  · intro d hd
    obtain ⟨h1, h2⟩ := (hf d).mp hd
    obtain ⟨l, l1, l2, _⟩ := hc.chains d h1 h2
    refine ⟨l, l1, ?_, by unfold AImg.sectorsOf; rw [l1]⟩
    rintro rfl; exact l2 rfl
  · intro d hd
    obtain ⟨h1, h2⟩ := (hf d).mp hd
    obtain ⟨l, l1, l2, l3, l4⟩ := hc.chains d h1 h2
    unfold AImg.sectorsOf
    rw [l1]
    refine ⟨l3, ?_⟩
    intro s hs
    obtain ⟨x, hx, rfl⟩ := List.mem_map.mp hs
    obtain ⟨⟨u1, u2, u3, u4⟩, nf, _⟩ := l4 x hx
    exact ⟨nf, u1, u2, fun h => u4 (Or.inl h)⟩
  · intro d hd e he hne s hs hs'
    obtain ⟨h1, h2⟩ := (hf d).mp hd
    obtain ⟨h3, h4⟩ := (hf e).mp he
    obtain ⟨i, hi⟩ := List.getElem?_of_mem h1
    obtain ⟨j, hj⟩ := List.getElem?_of_mem h3
    obtain ⟨l, l1, _⟩ := hc.chains d h1 h2
    obtain ⟨l', l1', _⟩ := hc.chains e h3 h4
    unfold AImg.sectorsOf at hs hs'
    rw [l1] at hs; rw [l1'] at hs'
    obtain ⟨x, hx, hxs⟩ := List.mem_map.mp hs
    obtain ⟨y, hy, hys⟩ := List.mem_map.mp hs'
    have hij : i ≠ j := by rintro rfl; rw [hi] at hj; injection hj with hj; rw [hj] at hne; exact hne rfl
    exact hc.disjoint i j d e hi hj hij h2 h4 l l' l1 l1' x hx y hy (by rw [hxs, hys])

/-- C07 applies to a state reached by two writes, a failed write, and a shred. -/
example : ∃ m', Reach (mountRec sdH sdDisk []) m' ∧ m'.files.length = 2 := by
  obtain ⟨m1, m2, ds1, ds2, h1, h2, h3, h4, hh1, hh2, h5, h6, h7, h8, h9⟩ := two_files
  have r1 : Reach (mountRec sdH sdDisk []) m1 := by
    have := Reach.step (m := mountRec sdH sdDisk []) (.write nameA dataA) .start
      ⟨dataA_ne, canonA.2, by decide, by rw [canonA.1]; decide⟩
    rw [show (Op.run (.write nameA dataA) (mountRec sdH sdDisk [])) = (.ok (), m1) from h1] at this
    exact this
  have hn1 : m1.names = [nameA] := by unfold AImg.names; rw [← listing_names, h5]; rfl
  have r2 : Reach (mountRec sdH sdDisk []) m2 := by
    have := Reach.step (.write nameB dataB) r1
      ⟨dataB_ne, canonB.2, by
        have : m1.files.length = 1 := by rw [← List.length_map (f := ADirent.filename)]; exact congrArg List.length hn1
        omega, by rw [canonB.1, hn1]; decide⟩
    rw [show (Op.run (.write nameB dataB) m1) = (.ok (), m2) from h3] at this
    exact this
  have hmax : m2.hdr.maxSectors < 1280 := by rw [hh2]; decide
  obtain ⟨m3, k1, k2, k3, k4, _⟩ := mounted_shred h4 0 hmax
  refine ⟨m3, ?_, ?_⟩
  · have := Reach.step (.shred 0) r2 hmax
    rw [show Op.run (.shred 0) m2 = (.ok (), m3) from k1] at this
    exact this
  · rw [← List.length_map (f := ADirent.filename), ← listing_names, k4, listing_names, List.length_map]; exact h9

/-- **C09.** `shred(fill)` on a volume of at most 1279 sectors: each free sector is filled with `fill`, no other byte
changes, the free pool and all files stay the same. -/
theorem C09_shred {m : AImg} {ds} (fill : Nat) (hm : Mounted m ds) (hmax : m.hdr.maxSectors < 1280) :
    ∃ m', AImg.shred fill m = (.ok (), m') ∧ AImg.open m'.bytes = .ok m' ∧ m'.bytes.length = m.bytes.length ∧
      (∀ s, IsFree m.hdr m.bytes s → ∀ p n, m.hdr.getPos s = .ok (p, n) →
        slice m'.bytes p (p + n) = List.replicate n (UInt8.ofNat fill)) ∧
      (∀ k, (∀ s p n, IsFree m.hdr m.bytes s → m.hdr.getPos s = .ok (p, n) → ¬ (p ≤ k ∧ k < p + n)) →
        m'.bytes[k]? = m.bytes[k]?) ∧
      m'.listing = m.listing ∧ freePool m'.hdr m'.bytes = freePool m.hdr m.bytes := by
  obtain ⟨m', h1, h2, h3, h4, w⟩ := mounted_shred hm fill hmax
  have g := hm.2.geom
  have hpos : ∀ s, IsFree m.hdr m.bytes s → m.hdr.getPos s = .ok (m.hdr.dpos s, m.hdr.sectorSize) := by
    intro s hs
    have := (hm.2.free s hs).data g
    exact AHeader.getPos_data g this.1 this.2
  refine ⟨m', h1, h2.1, w.len, ?_, ?_, h4, ?_⟩
  · intro s hs p n hp
    rw [hpos s hs] at hp
    injection hp with hp; injection hp with hp1 hp2
    subst hp1; subst hp2
    exact w.filled s hs
  · intro k hk
    apply w.kept
    intro s hs
    have := hk s _ _ hs (hpos s hs)
    omega
  · rw [h3]
    unfold freePool
    rw [(shred_preserves hm.2 w).2.1]

example : ∃ m', AImg.shred 0xe5 (mountRec ddH ddDisk []) = (.ok (), m') := by
  obtain ⟨m', h, _⟩ := C09_shred 0xe5 mounted_dd (by decide)
  exact ⟨m', h⟩

end Atr
