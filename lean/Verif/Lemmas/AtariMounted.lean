import Verif.Lemmas.AtariBlank
/-! # Operations on mounted volumes, in terms of `Mounted` -/
namespace Atr

/-- number of sectors a file of `n` bytes takes -/
theorem pieces_length {h b ds} (c : Loose h b ds) (data : Bytes) :
    (pieces h data).length = (data.length + h.sectorSize - 4) / (h.sectorSize - 3) := by
  have := c.sectorSize
  rw [pieces, length_chunks _ (by omega)]
  congr 1; omega

theorem Mounted.eq {m : AImg} {ds} (hm : Mounted m ds) : m = mountRec m.hdr m.bytes ds := (mounted_iff.mp hm).2

theorem mounted_write {m : AImg} {ds} (hm : Mounted m ds) {name data : Bytes} (hne : data ≠ []) (h0 : (0 : UInt8) ∉ name)
    (hslot : m.files.length < 64) (hfresh : norm83 name ∉ m.files.map ADirent.filename)
    (hk : (pieces m.hdr data).length ≤ (freePool m.hdr m.bytes).length) :
    ∃ m' ds' L1 L2 order e, AImg.writeFile name data m = (.ok (), m') ∧ Mounted m' ds' ∧ m'.hdr = m.hdr ∧
      m.listing = L1 ++ L2 ∧ m'.listing = L1 ++ (norm83 name, .ok data) :: L2 ∧
      order = (freePool m.hdr m.bytes).take (pieces m.hdr data).length ∧
      freePool m'.hdr m'.bytes = (freePool m.hdr m.bytes).drop (pieces m.hdr data).length ∧
      e ∈ m'.files ∧ e.filename = norm83 name ∧ (∃ l, e.readChain m'.hdr m'.bytes = .ok l ∧ l.map (·.1) = order) ∧
      (∀ s, IsFree m'.hdr m'.bytes s ↔ IsFree m.hdr m.bytes s ∧ s ∉ order) ∧
      slice (sec m'.hdr m'.bytes 360) 0 10 = slice (sec m.hdr m.bytes 360) 0 10 ∧
      (m.hdr.imageSize = 133120 → sec m'.hdr m'.bytes 1024 = sec m.hdr m.bytes 1024) := by
  obtain ⟨h1, h2⟩ := hm
  generalize hh : m.hdr = h at *
  generalize hb : m.bytes = b at *
  have hmr : m = mountRec h b ds := by
    rw [open_eq h2.toLoose] at h1; injection h1 with h1; exact h1.symm
  clear h1 hh hb
  subst hmr
  have hf : ∀ d ∈ ds, d.inUse = true → d.filename ≠ norm83 name := by
    intro d hd hu hn
    exact hfresh (List.mem_map.mpr ⟨d, mem_files.mpr ⟨hd, hu⟩, hn⟩)
  obtain ⟨b', order, map', e, w, nf, c', hw, hl1, hl2⟩ := writeFile_ok h2 hne h0 (free_slot hslot) hf hk
  have heu : e.inUse = true := by rw [nf.entry]; rfl
  have hen : e.filename = norm83 name := by rw [nf.entry]; rfl
  have g := h2.geom
  obtain ⟨nl, n1, n2, _⟩ := nf.chain
  obtain ⟨fm1, fm2⟩ := freeMap_after h2.toLoose w.comm w.res.mlen
  have hml := length_freeMap g h2.sectorSize h2.size
  obtain ⟨und, uall⟩ := w.res.user h2.toLoose
  obtain ⟨p1, p2, p3⟩ := pieces_props h data h2.sectorSize hne
  have hidx := free_slot hslot
  obtain ⟨ln1, ln2⟩ := linkSectors_nums h2.sectorSize hidx (pieces h data) order w.res.len.symm (fun x hx => (p1 x hx).2)
    (fun n hn => by have := (uall n hn).2.1; omega)
  refine ⟨_, _, _, _, order, e, hw, mounted_mountRec c', rfl, hl1, hl2, w.res.order_eq, freePool_written h2.toLoose w, ?_, hen,
    ⟨nl, n1, n2⟩, ?_, ?_, ?_⟩
  · apply mem_files.mpr
    refine ⟨?_, heu⟩
    apply List.mem_of_getElem? (i := getFreeDirent ds)
    rw [getElem?_setDirent (getFreeDirent_spec ds).1, if_pos rfl]
  · intro s
    show (freeMap h b')[s]? = some true ↔ (freeMap h b)[s]? = some true ∧ _
    rw [fm1, List.getElem?_take, w.res.bits]
    by_cases hs : s < 720
    · rw [if_pos hs, List.getElem?_append_left (by omega)]
      by_cases ho : s ∈ order <;> simp [ho]
    · rw [if_neg hs, List.getElem?_eq_none (by omega)]; simp
  · show slice (sec h b' 360) 0 10 = slice (sec h b 360) 0 10
    rw [w.comm.vtoc, newVtoc]
    have hl := length_sec g (dataSec_of g (s := 360) (by omega) (by have := h2.size; omega))
    have := h2.sectorSize
    apply slice_splice_disjoint
    · rw [length_packbits, List.length_take, w.res.mlen]; omega
    · left; omega
  · intro hed
    have hed : h.imageSize = 133120 := hed
    have h1024 := h2.ed hed
    show sec h b' 1024 = sec h b 1024
    apply w.comm.other 1024 (dataSec_of g (by omega) h1024) (by omega)
    · rw [ln1]; intro hm; have := (uall _ hm).2.1; omega
    · rw [calcDirSectors, (numberDirSectors_map _ 361).1, List.mem_range'_1]
      have := w.slots; omega

theorem mounted_full {m : AImg} {ds} (hm : Mounted m ds) {name data : Bytes}
    (hk : (freePool m.hdr m.bytes).length < (pieces m.hdr data).length) :
    AImg.writeFile name data m = (.error .notEnoughSpace, m) := by
  have := writeFile_full (name := name) hm.2 hk
  rw [← hm.eq] at this
  exact this

theorem mounted_delete {m : AImg} {ds} (hm : Mounted m ds) {name : Bytes} (hl : name ∈ m.files.map ADirent.filename) :
    ∃ m' ds' L1 L2 x l, AImg.deleteFile name m = (.ok (), m') ∧ Mounted m' ds' ∧ m'.hdr = m.hdr ∧
      m.listing = L1 ++ (name, x) :: L2 ∧ m'.listing = L1 ++ L2 ∧
      (∃ d ∈ m.files, d.filename = name ∧ d.readChain m.hdr m.bytes = .ok l) ∧
      (∀ s, IsFree m'.hdr m'.bytes s ↔ IsFree m.hdr m.bytes s ∨ (s ∈ l.map (·.1) ∧ s < 720)) ∧
      slice (sec m'.hdr m'.bytes 360) 0 10 = slice (sec m.hdr m.bytes 360) 0 10 ∧
      (m.hdr.imageSize = 133120 → sec m'.hdr m'.bytes 1024 = sec m.hdr m.bytes 1024) ∧
      (∃ d i, ds[i]? = some d ∧ d.inUse = true ∧ d.filename = name ∧ ds' = ds.set i (deadEntry d)) := by
  obtain ⟨h1, h2⟩ := hm
  generalize hh : m.hdr = h at *
  generalize hb : m.bytes = b at *
  have hmr : m = mountRec h b ds := by
    rw [open_eq h2.toLoose] at h1; injection h1 with h1; exact h1.symm
  clear h1 hh hb
  subst hmr
  obtain ⟨d, hd, rfl⟩ := List.mem_map.mp hl
  have hd' := mem_files.mp hd
  obtain ⟨i, hi⟩ := List.getElem?_of_mem hd'.1
  obtain ⟨l, l1, _⟩ := h2.chains d hd'.1 hd'.2
  obtain ⟨b', map', w, c', hdel, hfree, hl1, hl2⟩ := deleteFile_ok h2 hi hd'.2 l1
  have g := h2.geom
  refine ⟨_, _, _, _, _, l, hdel, mounted_mountRec c', rfl, hl1, hl2, ⟨d, hd, rfl, l1⟩, hfree, ?_, ?_, d, i, hi, hd'.2, rfl, rfl⟩
  · show slice (sec h b' 360) 0 10 = slice (sec h b 360) 0 10
    rw [w.comm.vtoc, newVtoc]
    have hl := length_sec g (dataSec_of g (s := 360) (by omega) (by have := h2.size; omega))
    have := h2.sectorSize
    apply slice_splice_disjoint
    · rw [length_packbits, List.length_take, w.mlen]; omega
    · left; omega
  · intro hed
    have hed : h.imageSize = 133120 := hed
    have h1024 := h2.ed hed
    show sec h b' 1024 = sec h b 1024
    apply w.comm.other 1024 (dataSec_of g (by omega) h1024) (by omega)
    · simp
    · rw [calcDirSectors, (numberDirSectors_map _ 361).1, List.mem_range'_1]
      have := w.slots; omega

theorem mounted_missing {m : AImg} {ds} (hm : Mounted m ds) {name : Bytes} (hn : ∀ d ∈ ds, d.filename ≠ name) :
    AImg.deleteFile name m = (.error .fileNotFound, m) := by
  have := deleteFile_missing hm.2 hn
  rw [← hm.eq] at this
  exact this

theorem mounted_shred {m : AImg} {ds} (hm : Mounted m ds) (fill : Nat) (hmax : m.hdr.maxSectors < 1280) :
    ∃ m', AImg.shred fill m = (.ok (), m') ∧ Mounted m' ds ∧ m'.hdr = m.hdr ∧ m'.listing = m.listing ∧
      Shredded m.hdr m.bytes m'.bytes (UInt8.ofNat fill) := by
  obtain ⟨b', w, c', hs, hl⟩ := shred_ok hm.2 fill hmax
  rw [← hm.eq] at hs hl
  exact ⟨_, hs, mounted_mountRec c', rfl, hl, w⟩

theorem mounted_find {m : AImg} {ds} (hm : Mounted m ds) {name : Bytes} {x : Except Err Bytes} (h : (name, x) ∈ m.listing) :
    m.findFile name = x := by
  rw [hm.eq] at h ⊢
  exact findFile_listing hm.2 h

theorem find_missing {m : AImg} {name : Bytes} (h : name ∉ m.files.map ADirent.filename) :
    m.findDirent name = .error .fileNotFound ∧ m.findFile name = .error .fileNotFound := by
  have := findDirent_none (m := m) (name := name) (fun d hd hn => h (List.mem_map.mpr ⟨d, hd, hn⟩))
  exact ⟨this, by unfold AImg.findFile; rw [this]⟩

theorem listing_names (m : AImg) : m.listing.map (·.1) = m.files.map ADirent.filename := by
  unfold AImg.listing; rw [List.map_map]; rfl

theorem mounted_nodup {m : AImg} {ds} (hm : Mounted m ds) : (m.files.map ADirent.filename).Nodup := by
  have hc := hm.2
  rw [hm.eq]
  show ((ds.filter (·.inUse)).map ADirent.filename).Nodup
  rw [List.Nodup, List.pairwise_map, List.pairwise_filter, List.pairwise_iff_getElem]
  intro i j hi hj hij hu hv heq
  exact hc.first j i ds[j] ds[i] (List.getElem?_eq_getElem _) (List.getElem?_eq_getElem _) (by simpa using hv) hij heq

/-- every listed file of a mounted volume can be read -/
theorem mounted_readable {m : AImg} {ds} (hm : Mounted m ds) {n : Bytes} {x : Except Err Bytes} (h : (n, x) ∈ m.listing) :
    ∃ d, x = .ok d := by
  have hc := hm.2
  obtain ⟨d, hd, he⟩ := List.mem_map.mp h
  injection he with h1 h2
  rw [hm.eq] at hd
  have := mem_files.mp hd
  obtain ⟨y, hy⟩ := getFile_live hc this.1 this.2
  exact ⟨y, by rw [← h2]; exact hy⟩

theorem lookup_iff_listing {m : AImg} {ds} (hm : Mounted m ds) (n : Bytes) :
    (∃ x, (n, x) ∈ m.listing ∧ m.findFile n = x) ∨ (n ∉ m.listing.map (·.1) ∧ m.findFile n = .error .fileNotFound) := by
  by_cases h : n ∈ m.listing.map (·.1)
  · left
    obtain ⟨p, hp, rfl⟩ := List.mem_map.mp h
    exact ⟨p.2, hp, mounted_find hm hp⟩
  · right
    exact ⟨h, (find_missing (by rw [← listing_names]; exact h)).2⟩

theorem find_of_listing {m m' : AImg} {ds ds'} (hm : Mounted m ds) (hm' : Mounted m' ds') {L1 L2 : List (Bytes × Except Err Bytes)}
    {p : Bytes × Except Err Bytes} (h1 : m.listing = L1 ++ L2) (h2 : m'.listing = L1 ++ p :: L2) {n : Bytes} (hn : n ≠ p.1) :
    m'.findFile n = m.findFile n := by
  rcases lookup_iff_listing hm n with ⟨x, hx, hf⟩ | ⟨hx, hf⟩
  · rw [hf]
    apply mounted_find hm'
    rw [h2]; rw [h1] at hx
    simp only [List.mem_append, List.mem_cons] at *
    rcases hx with hx | hx
    · exact Or.inl hx
    · exact Or.inr (Or.inr hx)
  · rw [hf]
    apply (find_missing _).2
    rw [← listing_names, h2]
    rw [h1] at hx
    simp only [List.map_append, List.map_cons, List.mem_append, List.mem_cons] at *
    intro hc
    rcases hc with hc | hc | hc
    · exact hx (Or.inl hc)
    · exact hn hc
    · exact hx (Or.inr hc)

/-! ### `NotEnoughSpaceOnDisk` comes from the allocator only -/

theorem writeSectors_err {ws : List WSector} : ∀ {m : AImg} {e : Err} {m' : AImg}, AImg.writeSectors ws m = (.error e, m') →
    e ≠ .notEnoughSpace := by
  induction ws with
  | nil => intro m e m' h; simp [AImg.writeSectors] at h
  | cons w ws ih =>
    intro m e m' h
    unfold AImg.writeSectors at h
    split at h
    · rename_i e0 he
      unfold AHeader.getPos at he
      split at he
      · injection he with he; injection h with h; injection h with h; rw [← h, ← he]; decide
      · cases he
    · split at h
      · rename_i e0 he
        unfold assignSlice at he
        simp only at he
        split at he
        · cases he
        · split at he
          · cases he
          · injection he with he; injection h with h; injection h with h; rw [← h, ← he]; decide
      · exact ih h

theorem getSectors_err {h : AHeader} {b : Bytes} {s t : Nat} {e : Err} (hg : h.getSectors b s t = .error e) : e = .byteNotInFile := by
  have hp : ∀ {s e}, h.getPos s = .error e → e = .byteNotInFile := by
    intro s e he
    unfold AHeader.getPos at he
    split at he
    · injection he with he; exact he.symm
    · cases he
  have hms : ∀ k s e, h.moreSize s k = .error e → e = .byteNotInFile := by
    intro k
    induction k with
    | zero => intro s e he; cases he
    | succ k ih =>
      intro s e he
      unfold AHeader.moreSize at he
      split at he
      · rename_i e0 h0; injection he with he; subst he; exact hp h0
      · split at he
        · rename_i e0 h0; injection he with he; subst he; exact ih _ _ h0
        · cases he
  unfold AHeader.getSectors AHeader.getSectorSlice at hg
  split at hg
  · rename_i e0 h0
    injection hg with hg; subst hg
    split at h0
    · rename_i e1 h1; injection h0 with h0; subst h0; exact hp h1
    · split at h0
      · rename_i e1 h1; injection h0 with h0; subst h0; exact hms _ _ _ h1
      · cases h0
  · cases hg

theorem scanDir_err {h : AHeader} : ∀ {l : List Bytes} {n : Nat} {e : Err}, scanDir h n l = .error e → e = .valueError := by
  intro l
  induction l with
  | nil => intro n e he; cases he
  | cons c l ih =>
    intro n e he
    unfold scanDir at he
    split at he
    · rename_i e0 h0
      injection he with he; subst he
      unfold ADirent.parse at h0
      split at h0
      · cases h0
      · injection h0 with h0; exact h0.symm
    · split at he
      · cases he
      · split at he
        · rename_i e0 h0; injection he with he; subst he; exact ih h0
        · cases he

theorem getMetadata_err {m m' : AImg} {e : Err} (hg : AImg.getMetadata m = (.error e, m')) : e ≠ .notEnoughSpace := by
  unfold AImg.getMetadata at hg
  split at hg
  · rename_i e0 m0 h0
    injection hg with hg _; injection hg with hg; subst hg
    unfold AImg.getVtoc at h0
    split at h0
    · rename_i e1 h1; injection h0 with h0 _; injection h0 with h0; rw [← h0, getSectors_err h1]; decide
    · split at h0
      · simp only at h0
        split at h0 <;>
        · split at h0
          · injection h0 with h0 _; injection h0 with h0; rw [← h0]; decide
          · split at h0
            · injection h0 with h0 _; injection h0 with h0; rw [← h0]; decide
            · split at h0
              · split at h0
                · rename_i e1 h1; injection h0 with h0 _; injection h0 with h0; rw [← h0, getSectors_err h1]; decide
                · split at h0
                  · cases h0
                  · injection h0 with h0 _; injection h0 with h0; rw [← h0]; decide
                  · injection h0 with h0 _; injection h0 with h0; rw [← h0]; decide
              · cases h0
      · injection h0 with h0 _; injection h0 with h0; rw [← h0]; decide
  · split at hg
    · rename_i e0 m0 h0
      injection hg with hg _; injection hg with hg; subst hg
      unfold AImg.getDirectory at h0
      split at h0
      · rename_i e1 h1; injection h0 with h0 _; injection h0 with h0; rw [← h0, getSectors_err h1]; decide
      · split at h0
        · rename_i e1 h1; injection h0 with h0 _; injection h0 with h0; rw [← h0, scanDir_err h1]; decide
        · cases h0
    · split at hg
      · cases hg
      · injection hg with hg _; injection hg with hg; rw [← hg]; decide

theorem transaction_not_full {body : Proc AImg Unit} {m m' : AImg} (hb : ∀ e m', body m = (.error e, m') → e ≠ .notEnoughSpace) :
    AImg.transaction body m ≠ (.error .notEnoughSpace, m') := by
  intro h
  unfold AImg.transaction at h
  simp only at h
  split at h
  · exact getMetadata_err h rfl
  · rename_i e m1 h1
    split at h
    · injection h with h _; injection h with h; exact hb e m1 h1 h
    · rename_i e' m2 h2
      injection h with h _; injection h with h
      exact getMetadata_err h2 h

/-- with enough free sectors `write_file` never reports a full disk -/
theorem mounted_not_full {m : AImg} {ds} (hm : Mounted m ds) {name data : Bytes}
    (hk : (pieces m.hdr data).length ≤ (freePool m.hdr m.bytes).length) (m' : AImg) :
    AImg.writeFile name data m ≠ (.error .notEnoughSpace, m') := by
  obtain ⟨h1, h2⟩ := hm
  generalize hh : m.hdr = h at *
  generalize hb : m.bytes = b at *
  have hmr : m = mountRec h b ds := by
    rw [open_eq h2.toLoose] at h1; injection h1 with h1; exact h1.symm
  clear h1 hh hb
  subst hmr
  apply transaction_not_full
  intro e m1 hb
  obtain ⟨order, map', r⟩ := reserved_spec h2.toLoose hk
  obtain ⟨s360, e1, e2, e3⟩ := calcBitmap_eq (h := h) (m := mountRec h b ds) rfl h2.geom h2.sectorSize h2.size r.mlen
  unfold AImg.writeBody at hb
  rw [getDirectory_mount h2] at hb
  simp only at hb
  rw [show (mountRec h b ds).hdr = h from rfl, buildSectors_eq h2.toLoose] at hb
  simp only at hb
  rw [getVtocObject_eq h2] at hb
  simp only [List.length_map] at hb
  rw [r.res] at hb
  simp only at hb
  rw [e3] at hb
  simp only at hb
  split at hb
  · rename_i e0 m0 h0; injection hb with hb _; injection hb with hb; rw [← hb]; exact writeSectors_err h0
  · split at hb
    · rename_i e0 m0 h0; injection hb with hb _; injection hb with hb; rw [← hb]; exact writeSectors_err h0
    · exact writeSectors_err hb

end Atr
