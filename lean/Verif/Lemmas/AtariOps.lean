import Verif.Lemmas.AtariDelete
/-! # `write_file`, `delete_file` and `shred` as whole operations on mounted volumes -/
namespace Atr

theorem rollback_id (m : AImg) : m.rollback m.beginTransaction = m := by
  unfold AImg.rollback AImg.beginTransaction View.read
  simp only [Nat.zero_add]
  rw [splice_slice_self _ _ _ (by omega) (by omega)]

theorem getMetadata_mount {h b b' ds ds'} (c' : Loose h b' ds') :
    AImg.getMetadata { mountRec h b ds with bytes := b' } = (.ok (), mountRec h b' ds') :=
  getMetadata_eq c' rfl rfl rfl (Or.inl rfl)

theorem getMetadata_self {h b ds} (c : Consistent h b ds) :
    AImg.getMetadata (mountRec h b ds) = (.ok (), mountRec h b ds) :=
  getMetadata_eq c rfl rfl rfl (Or.inl rfl)

theorem transaction_ok {h b b' ds ds'} {body : Proc AImg Unit} (c' : Loose h b' ds')
    (hb : body (mountRec h b ds) = (.ok (), { mountRec h b ds with bytes := b' })) :
    AImg.transaction body (mountRec h b ds) = (.ok (), mountRec h b' ds') := by
  unfold AImg.transaction
  rw [hb]
  exact getMetadata_mount c'

/-- a body that raises before touching anything -/
theorem transaction_err {h b ds} {body : Proc AImg Unit} {e : Err} (c : Consistent h b ds)
    (hb : body (mountRec h b ds) = (.error e, mountRec h b ds)) :
    AImg.transaction body (mountRec h b ds) = (.error e, mountRec h b ds) := by
  unfold AImg.transaction
  rw [hb]
  simp only
  have : (if e.isAtr = true then (mountRec h b ds).rollback (mountRec h b ds).beginTransaction else mountRec h b ds)
      = mountRec h b ds := by
    split
    · exact rollback_id _
    · rfl
  rw [this, getMetadata_self c]

theorem buildSectors_eq {h b ds} (c : Loose h b ds) (data : Bytes) :
    buildSectors h data = .ok ((pieces h data).map (WSector.ofData h.sectorSize)) := by
  have hpl : h.payloadBytes = (h.sectorSize : Int) - 3 := c.geom.payload
  have hss := c.sectorSize
  unfold buildSectors
  by_cases hne : data = []
  · subst hne; simp [pieces, chunks, chunksFuel]
  · rw [if_neg hne, if_neg (by omega), show h.payloadBytes.toNat = h.sectorSize - 3 by omega]
    rfl

theorem writeFile_full {h b ds} (c : Consistent h b ds) {name data : Bytes}
    (hk : (freePool h b).length < (pieces h data).length) :
    AImg.writeFile name data (mountRec h b ds) = (.error .notEnoughSpace, mountRec h b ds) := by
  apply transaction_err c
  unfold AImg.writeBody
  rw [getDirectory_mount c]
  simp only
  rw [show (mountRec h b ds).hdr = h from rfl, buildSectors_eq c.toLoose]
  simp only
  rw [getVtocObject_eq c]
  simp only [List.length_map]
  rw [reserve_fails _ _ (by rw [freeList_pad]; exact hk)]

theorem writeFile_ok {h b ds} (c : Consistent h b ds) {name data : Bytes} (hne : data ≠ []) (h0 : (0 : UInt8) ∉ name)
    (hidx : getFreeDirent ds < 64) (hfresh : ∀ d ∈ ds, d.inUse = true → d.filename ≠ norm83 name)
    (hk : (pieces h data).length ≤ (freePool h b).length) :
    ∃ b' order map' e, Written h b b' ds name data order map' ∧ NewFile h b' ds name data order e ∧
      Consistent h b' (setDirent ds (getFreeDirent ds) e) ∧
      AImg.writeFile name data (mountRec h b ds) = (.ok (), mountRec h b' (setDirent ds (getFreeDirent ds) e)) ∧
      (mountRec h b ds).listing = ((ds.take (getFreeDirent ds)).filter (·.inUse)).map (fun d => (d.filename, d.getFile h b)) ++
        ((ds.drop (getFreeDirent ds + 1)).filter (·.inUse)).map (fun d => (d.filename, d.getFile h b)) ∧
      (mountRec h b' (setDirent ds (getFreeDirent ds) e)).listing =
        ((ds.take (getFreeDirent ds)).filter (·.inUse)).map (fun d => (d.filename, d.getFile h b)) ++ (norm83 name, .ok data) ::
        ((ds.drop (getFreeDirent ds + 1)).filter (·.inUse)).map (fun d => (d.filename, d.getFile h b)) := by
  obtain ⟨b', order, map', w⟩ := writeBody_ok (name := name) c hne hidx hk
  obtain ⟨e, nf⟩ := newFile_spec c hne h0 hidx w
  obtain ⟨p1, p2, p3⟩ := write_preserves c hne hidx hfresh w nf
  have heu : e.inUse = true := by rw [nf.entry]; rfl
  have hen : e.filename = norm83 name := by rw [nf.entry]; rfl
  have hmap : ∀ (l : List ADirent), (∀ d ∈ l, d ∈ ds) → (l.filter (·.inUse)).map (fun d => (d.filename, d.getFile h b')) =
      (l.filter (·.inUse)).map (fun d => (d.filename, d.getFile h b)) := by
    intro l hl
    apply List.map_congr_left
    intro d hd
    rw [List.mem_filter] at hd
    rw [(p2 d (hl d hd.1) (by simpa using hd.2)).2]
  refine ⟨b', order, map', e, w, nf, p1, transaction_ok p1 w.body, ?_, ?_⟩
  · show (ds.filter (·.inUse)).map (fun d => (d.filename, d.getFile h b)) = _
    rw [(filter_setDirent heu).2, List.map_append]
  · show ((setDirent ds (getFreeDirent ds) e).filter (·.inUse)).map (fun d => (d.filename, d.getFile h b')) = _
    rw [(filter_setDirent heu).1, List.map_append, List.map_cons, hen, p3,
      hmap _ (fun d hd => List.mem_of_mem_take hd), hmap _ (fun d hd => List.mem_of_mem_drop hd)]

theorem filter_set_dead {ds : List ADirent} {i : Nat} {d e : ADirent} (hd : ds[i]? = some d) (hu : d.inUse = true)
    (he : e.inUse = false) :
    ds.filter (·.inUse) = (ds.take i).filter (·.inUse) ++ d :: (ds.drop (i + 1)).filter (·.inUse) ∧
    (ds.set i e).filter (·.inUse) = (ds.take i).filter (·.inUse) ++ (ds.drop (i + 1)).filter (·.inUse) := by
  obtain ⟨hi, hd⟩ := List.getElem?_eq_some_iff.mp hd
  constructor
  · conv => lhs; rw [← List.take_append_drop i ds, List.drop_eq_getElem_cons hi]
    rw [List.filter_append, List.filter_cons_of_pos (by rw [hd]; exact hu), hd]
  · rw [List.set_eq_take_append_cons_drop, if_pos hi, List.filter_append, List.filter_cons_of_neg (by simp [he])]

theorem deleteFile_ok {h b ds} (c : Consistent h b ds) {i : Nat} {d : ADirent} (hd : ds[i]? = some d) (hu : d.inUse = true)
    {l} (hl : d.readChain h b = .ok l) :
    ∃ b' map', Deleted h b b' ds i d l map' ∧ Consistent h b' (ds.set i (deadEntry d)) ∧
      AImg.deleteFile d.filename (mountRec h b ds) = (.ok (), mountRec h b' (ds.set i (deadEntry d))) ∧
      (∀ s, IsFree h b' s ↔ IsFree h b s ∨ (s ∈ l.map (·.1) ∧ s < 720)) ∧
      (mountRec h b ds).listing = ((ds.take i).filter (·.inUse)).map (fun d => (d.filename, d.getFile h b)) ++
        (d.filename, d.getFile h b) :: ((ds.drop (i + 1)).filter (·.inUse)).map (fun d => (d.filename, d.getFile h b)) ∧
      (mountRec h b' (ds.set i (deadEntry d))).listing = ((ds.take i).filter (·.inUse)).map (fun d => (d.filename, d.getFile h b)) ++
        ((ds.drop (i + 1)).filter (·.inUse)).map (fun d => (d.filename, d.getFile h b)) := by
  obtain ⟨l0, hl0, _, _, l4⟩ := c.chains d (List.mem_of_getElem? hd) hu
  have : l0 = l := by rw [hl] at hl0; injection hl0 with hl0; exact hl0.symm
  subst this
  obtain ⟨b', map', w, hbody⟩ := deleteBody_ok c hl (findDirentIdx_live c hd hu) (fun x hx => (l4 x hx).1.2.2.1)
  obtain ⟨p1, p2, p3⟩ := delete_preserves c hd hu hl w
  have hf := filter_set_dead (e := deadEntry d) hd hu rfl
  have hmap : ∀ (l : List ADirent), (∀ d ∈ l, d ∈ ds) → (l.filter (·.inUse)).map (fun d => (d.filename, d.getFile h b')) =
      (l.filter (·.inUse)).map (fun d => (d.filename, d.getFile h b)) := by
    intro l hl
    apply List.map_congr_left
    intro d hd
    rw [List.mem_filter] at hd
    rw [(p2 d (hl d hd.1) (by simpa using hd.2)).2]
  refine ⟨b', map', w, p1, transaction_ok p1 hbody, p3, ?_, ?_⟩
  · show (ds.filter (·.inUse)).map (fun d => (d.filename, d.getFile h b)) = _
    rw [hf.1, List.map_append, List.map_cons]
  · show ((ds.set i (deadEntry d)).filter (·.inUse)).map (fun d => (d.filename, d.getFile h b')) = _
    rw [hf.2, List.map_append, hmap _ (fun d hd => List.mem_of_mem_take hd), hmap _ (fun d hd => List.mem_of_mem_drop hd)]

theorem deleteFile_missing {h b ds} (c : Consistent h b ds) {name : Bytes} (hn : ∀ d ∈ ds, d.filename ≠ name) :
    AImg.deleteFile name (mountRec h b ds) = (.error .fileNotFound, mountRec h b ds) := by
  apply transaction_err c
  unfold AImg.deleteBody
  rw [getDirectory_mount c]
  simp only
  have : findDirentIdx ds name = .error .fileNotFound := by
    unfold findDirentIdx
    rw [List.findIdx?_eq_none_iff.mpr (by intro x hx; simpa using hn x hx)]
  rw [this]

theorem shred_ok {h b ds} (c : Consistent h b ds) (fill : Nat) (hmax : h.maxSectors < 1280) :
    ∃ b', Shredded h b b' (UInt8.ofNat fill) ∧ Consistent h b' ds ∧
      AImg.shred fill (mountRec h b ds) = (.ok (), mountRec h b' ds) ∧
      (mountRec h b' ds).listing = (mountRec h b ds).listing := by
  obtain ⟨b', w, hbody⟩ := shredBody_ok c fill hmax
  obtain ⟨p1, p2, p3⟩ := shred_preserves c w
  refine ⟨b', w, p1, transaction_ok p1 hbody, ?_⟩
  apply List.map_congr_left
  intro d hd
  have hd : d ∈ ds.filter (·.inUse) := hd
  rw [List.mem_filter] at hd
  show (d.filename, d.getFile h b') = (d.filename, d.getFile h b)
  rw [(p3 d hd.1 (by simpa using hd.2)).2]

/-! ### names on consistent volumes -/

theorem mem_files {h b ds} {d : ADirent} : d ∈ (mountRec h b ds).files ↔ d ∈ ds ∧ d.inUse = true := by
  show d ∈ ds.filter (·.inUse) ↔ _
  simp

theorem files_unique {h b ds} (c : Consistent h b ds) {d e : ADirent} (hd : d ∈ (mountRec h b ds).files)
    (he : e ∈ (mountRec h b ds).files) (hn : d.filename = e.filename) : d = e := by
  rw [mem_files] at hd he
  obtain ⟨i, hi⟩ := List.getElem?_of_mem hd.1
  obtain ⟨j, hj⟩ := List.getElem?_of_mem he.1
  rcases Nat.lt_trichotomy i j with h | h | h
  · exact absurd hn (c.first j i e d hj hi he.2 h)
  · subst h; rw [hi] at hj; injection hj
  · exact absurd hn.symm (c.first i j d e hi hj hd.2 h)

theorem findDirent_some {h b ds} (c : Consistent h b ds) {d : ADirent} (hd : d ∈ (mountRec h b ds).files) :
    (mountRec h b ds).findDirent d.filename = .ok d := by
  unfold AImg.findDirent
  cases hf : (mountRec h b ds).files.find? (fun e => e.filename == d.filename) with
  | none =>
    rw [List.find?_eq_none] at hf
    exact absurd (hf d hd) (by simp)
  | some e =>
    have h1 := List.mem_of_find?_eq_some hf
    have h2 := List.find?_some hf
    have := files_unique c h1 hd (by simpa using h2)
    rw [this]

theorem findDirent_none {m : AImg} {name : Bytes} (hn : ∀ d ∈ m.files, d.filename ≠ name) :
    m.findDirent name = .error .fileNotFound := by
  unfold AImg.findDirent
  rw [List.find?_eq_none.mpr (by intro x hx; simpa using hn x hx)]

theorem findDirent_mem {m : AImg} {name : Bytes} {d : ADirent} (hf : m.findDirent name = .ok d) :
    d ∈ m.files ∧ d.filename = name := by
  unfold AImg.findDirent at hf
  split at hf
  · rename_i e he
    injection hf with hf; subst hf
    exact ⟨List.mem_of_find?_eq_some he, by simpa using List.find?_some he⟩
  · cases hf

theorem getFile_live {h b ds} (c : Consistent h b ds) {d : ADirent} (hd : d ∈ ds) (hu : d.inUse = true) :
    ∃ x, d.getFile h b = .ok x := by
  obtain ⟨l, l1, l2, _, l4⟩ := c.chains d hd hu
  exact ⟨_, getFile_eq c.geom l1 (fun x hx => ⟨(l4 x hx).1.data c.geom, (l4 x hx).2.2⟩) l2⟩

/-- with fewer than 64 live files there is a directory slot below 64 -/
theorem free_slot {ds : List ADirent} (h : (ds.filter (·.inUse)).length < 64) : getFreeDirent ds < 64 := by
  obtain ⟨k1, k2, k3⟩ := getFreeDirent_spec ds
  have : ((ds.take (getFreeDirent ds)).filter (·.inUse)) = ds.take (getFreeDirent ds) := by
    rw [List.filter_eq_self]
    intro d hd
    obtain ⟨j, hj⟩ := List.getElem?_of_mem hd
    rw [List.getElem?_take] at hj
    split at hj
    · exact k3 j d (by assumption) hj
    · cases hj
  have h2 := ((List.take_sublist (getFreeDirent ds) ds).filter (·.inUse)).length_le
  rw [this, List.length_take] at h2
  omega

theorem getFile_congr_listing {m : AImg} {name : Bytes} {x : Except Err Bytes}
    (h : ∃ d ∈ m.files, d.filename = name ∧ d.getFile m.hdr m.bytes = x) (hu : ∀ d ∈ m.files, ∀ e ∈ m.files, d.filename = e.filename → d = e) :
    m.findFile name = x := by
  obtain ⟨d, hd, hn, hx⟩ := h
  unfold AImg.findFile AImg.findDirent
  cases hf : m.files.find? (fun e => e.filename == name) with
  | none =>
    rw [List.find?_eq_none] at hf
    exact absurd (hf d hd) (by simp [hn])
  | some e =>
    have h1 := List.mem_of_find?_eq_some hf
    have h2 := List.find?_some hf
    have := hu e h1 d hd (by rw [hn]; simpa using h2)
    simp only
    rw [this, hx]

/-- `findFile` from the listing -/
theorem findFile_listing {h b ds} (c : Consistent h b ds) {name : Bytes} {x : Except Err Bytes}
    (hm : (name, x) ∈ (mountRec h b ds).listing) : (mountRec h b ds).findFile name = x := by
  obtain ⟨d, hd, he⟩ := List.mem_map.mp hm
  injection he with h1 h2
  exact getFile_congr_listing ⟨d, hd, h1, h2⟩ (fun d hd e he => files_unique c hd he)

end Atr
