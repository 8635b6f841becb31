import Verif.Lemmas.AtariFull
import Verif.Lemmas.AtariWide
import Verif.Props.AtariFiles
/-!
# C51: writing to a full Atari DOS directory
-/
namespace Atr

/-- **C51 fails for Atari DOS.** On a single density volume with 64 files `write_file` reports success although no entry
is free: the file is not listed, the listed names are the old ones, and the directory entry has been written over
sector 369, a sector that belongs to the file area. -/
theorem C51_full_directory_not_refused {m : AImg} {ds} {name data : Bytes} (hm : Mounted m ds) (hss : m.hdr.sectorSize = 128)
    (hmax : 369 ≤ m.hdr.maxSectors) (hfull : m.files.length = 64) (hne : data ≠ [])
    (hk : sectorsNeeded m.hdr data.length ≤ (freePool m.hdr m.bytes).length) :
    ∃ m' first, AImg.writeFile name data m = (.ok (), m') ∧ AImg.open m'.bytes = .ok m' ∧ m'.names = m.names ∧
      sec m.hdr m'.bytes 369 = (rawEntry name 64 (sectorsNeeded m.hdr data.length) first).encode ++ List.replicate 112 0 := by
  have hd := hm.2.dirLen
  rw [hss] at hd
  have hf : m.files = ds.filter (·.inUse) := by rw [hm.eq]; rfl
  rw [hf] at hfull
  have hle := List.length_filter_le (fun d : ADirent => d.inUse) ds
  have hlen : ds.length = 64 := by omega
  have hall : ∀ d ∈ ds, d.inUse = true := List.length_filter_eq_length_iff.mp (hfull.trans hlen.symm)
  obtain ⟨b', first, h1, h2, h3⟩ := write_dirfull (name := name) hm.2 hss hmax hlen hall hne (by rw [needed_eq hm]; exact hk)
  rw [← hm.eq] at h1
  refine ⟨_, first, h1, h2, ?_, ?_⟩
  · unfold AImg.names
    rw [hf]; rfl
  · rw [← needed_eq hm]; exact h3

/-- two-letter names `AA` … `HH` -/
def nameN (k : Nat) : Bytes := [UInt8.ofNat (0x41 + k / 8), UInt8.ofNat (0x41 + k % 8)]

theorem nameN_canon : ∀ k, k < 64 → Canon83 (nameN k) := by unfold Canon83; decide +kernel
theorem nameN_inj : ∀ k, k < 64 → ∀ j, j < k → nameN j ≠ nameN k := by decide +kernel

theorem oneSector : sectorsNeeded sdH [(7 : UInt8)].length = 1 := by decide

/-- a volume with `n` one-byte files, built by `n` writes to the blank template -/
theorem files_volume : ∀ n, n ≤ 64 → ∃ m ds, Mounted m ds ∧ m.hdr = sdH ∧ m.files.length = n ∧
    (freePool m.hdr m.bytes).length = 707 - n ∧ ∀ x ∈ m.names, ∃ k, k < n ∧ x = nameN k := by
  intro n
  induction n with
  | zero => intro _; exact ⟨_, _, mounted_sd, rfl, rfl, sdDisk_pool, by simp [AImg.names, mountRec]⟩
  | succ n ih =>
    intro hn
    obtain ⟨m, ds, h1, h2, h3, h4, h5⟩ := ih (by omega)
    have hlen : (pieces m.hdr [7]).length = 1 := by rw [needed_eq h1, h2]; exact oneSector
    have hc := nameN_canon n (by omega)
    have hnew : norm83 (nameN n) ∉ m.files.map ADirent.filename := by
      rw [hc.1]
      intro hx
      obtain ⟨k, hk, he⟩ := h5 _ hx
      exact nameN_inj n (by omega) k hk he.symm
    obtain ⟨m', ds', L1, L2, order, e, k1, k2, k3, k4, k5, k6, k7, _⟩ :=
      mounted_write h1 (data := [7]) (by simp) hc.2 (by omega) hnew (by rw [hlen, h4]; omega)
    have hmap : m.files.map ADirent.filename = L1.map (·.1) ++ L2.map (·.1) := by rw [← listing_names, k4, List.map_append]
    have hmap' : m'.files.map ADirent.filename = L1.map (·.1) ++ nameN n :: L2.map (·.1) := by
      rw [← listing_names, k5, List.map_append, List.map_cons, hc.1]
    refine ⟨m', ds', k2, k3.trans h2, ?_, ?_, ?_⟩
    · have e1 := congrArg List.length hmap
      have e2 := congrArg List.length hmap'
      simp only [List.length_map, List.length_append, List.length_cons] at e1 e2
      omega
    · rw [k7, List.length_drop, h4, hlen]; omega
    · intro x hx
      have hx : x ∈ m'.files.map ADirent.filename := hx
      rw [hmap'] at hx
      have h5' : ∀ x, x ∈ L1.map (·.1) ++ L2.map (·.1) → ∃ k, k < n ∧ x = nameN k := by
        intro x hx; rw [← hmap] at hx; exact h5 x hx
      rcases List.mem_append.mp hx with hx | hx
      · obtain ⟨k, hk, he⟩ := h5' x (List.mem_append_left _ hx); exact ⟨k, by omega, he⟩
      · rcases List.mem_cons.mp hx with hx | hx
        · exact ⟨n, by omega, hx⟩
        · obtain ⟨k, hk, he⟩ := h5' x (List.mem_append_right _ hx); exact ⟨k, by omega, he⟩

/-- C51 applies to a volume with 64 files: a 65th file `NEW` is "written" but not listed. -/
example : ∃ m m', (∃ ds, Mounted m ds) ∧ m.files.length = 64 ∧
    AImg.writeFile [0x4e, 0x45, 0x57] [1, 2, 3] m = (.ok (), m') ∧ m'.names = m.names := by
  obtain ⟨m, ds, h1, h2, h3, h4, _⟩ := files_volume 64 (by omega)
  obtain ⟨m', _, k1, _, k3, _⟩ := C51_full_directory_not_refused (name := [0x4e, 0x45, 0x57]) (data := [1, 2, 3]) h1
    (by rw [h2]; rfl) (by rw [h2]; decide) h3 (by simp) (by rw [h4, h2]; decide)
  exact ⟨m, m', ⟨ds, h1⟩, h3, k1, k3⟩

/-- **C51 fails for double density volumes too.** Their directory sectors hold 128 entries, so with 64 files `write_file`
takes the 65th slot and reports success.  The sectors are taken from the free ones and the file is listed, but its number
does not fit into the link bytes of its sectors: reading it and deleting it raise `FileNumberMismatchError164`, then and
after opening the image again.  The other files are as they were. -/
theorem C51_wide_not_refused {m : AImg} {ds} {name data : Bytes} (hm : Mounted m ds) (hss : m.hdr.sectorSize = 256)
    (hdos : ∀ d ∈ m.files, d.mydos = false) (hfull : m.files.length = 64) (h0 : (0 : UInt8) ∉ name)
    (hfresh : norm83 name ∉ m.names) (hne : data ≠ [])
    (hk : sectorsNeeded m.hdr data.length ≤ (freePool m.hdr m.bytes).length) :
    ∃ m', AImg.writeFile name data m = (.ok (), m') ∧ AImg.open m'.bytes = .ok m' ∧
      m'.listing = m.listing ++ [(norm83 name, .error .fileNumberMismatch)] ∧
      m'.findFile (norm83 name) = .error .fileNumberMismatch ∧
      AImg.deleteFile (norm83 name) m' = (.error .fileNumberMismatch, m') ∧
      freePool m'.hdr m'.bytes = (freePool m.hdr m.bytes).drop (sectorsNeeded m.hdr data.length) := by
  have hmr := hm.eq
  have c := hm.2
  have hf : m.files = ds.filter (·.inUse) := by rw [hm.eq]; rfl
  have hfresh' : ∀ d ∈ ds, d.inUse = true → d.filename ≠ norm83 name := by
    intro d hd hu hn
    apply hfresh
    rw [AImg.names, hf]
    exact List.mem_map.mpr ⟨d, List.mem_filter.mpr ⟨hd, by simpa using hu⟩, hn⟩
  rw [hf] at hdos hfull
  have hslot : ∀ i d, ds[i]? = some d → d.inUse = true → i < 64 := fun i d hd hu =>
    c.toLoose.slot_lt hd hu (hdos d (List.mem_filter.mpr ⟨List.mem_of_getElem? hd, by simpa using hu⟩))
  have hdrop : (ds.drop 64).filter (·.inUse) = [] := by
    rw [List.filter_eq_nil_iff]
    intro d hd
    obtain ⟨i, hi⟩ := List.getElem?_of_mem hd
    rw [List.getElem?_drop] at hi
    intro hu
    have := hslot _ d hi (by simpa using hu)
    omega
  have htake : ((ds.take 64).filter (·.inUse)).length = 64 := by
    rw [← List.take_append_drop 64 ds, List.filter_append, hdrop, List.append_nil] at hfull
    exact hfull
  have hle := List.length_filter_le (fun d : ADirent => d.inUse) (ds.take 64)
  have hlt : (ds.take 64).length = 64 := by
    have := List.length_take_le 64 ds
    omega
  have hlen : 64 ≤ ds.length := by rw [List.length_take] at hlt; omega
  have hall : ∀ d ∈ ds.take 64, d.inUse = true := List.length_filter_eq_length_iff.mp (htake.trans hlt.symm)
  obtain ⟨k1, k2, k3⟩ := getFreeDirent_spec ds
  have hk64 : getFreeDirent ds = 64 := by
    rcases Nat.lt_trichotomy (getFreeDirent ds) 64 with h | h | h
    · have hx := List.getElem?_eq_getElem (l := ds) (i := getFreeDirent ds) (by omega)
      have h1 := k2 _ hx
      have h2 := hall (ds[getFreeDirent ds]'(by omega)) (by
        apply List.mem_of_getElem? (i := getFreeDirent ds)
        rw [List.getElem?_take, if_pos h, hx])
      rw [h1] at h2; exact absurd h2 (by simp)
    · exact h
    · have hx := List.getElem?_eq_getElem (l := ds) (i := 64) (by omega)
      have := hslot 64 _ hx (k3 64 _ h hx)
      omega
  have hneed := needed_eq hm (data := data)
  obtain ⟨b', e, w1, w2, w3, w4, w5, w6, w7, w8⟩ := write_past64 (name := name) c hne h0 (by omega) (by rw [hk64, hss]; omega)
    (by rw [hneed]; exact hk)
  have hfe := (filter_setDirent (ds := ds) w2)
  rw [hk64] at hfe w1 w8
  have hdrop65 : (ds.drop (64 + 1)).filter (·.inUse) = [] := by
    rw [List.filter_eq_nil_iff] at hdrop ⊢
    intro d hd
    apply hdrop
    rw [← List.drop_drop] at hd
    exact List.mem_of_mem_drop hd
  rw [hdrop65, List.append_nil] at hfe
  have hfiles : (setDirent ds 64 e).filter (·.inUse) = ds.filter (·.inUse) ++ [e] := by rw [hfe.1, hfe.2]
  have hsane : ((setDirent ds 64 e).filter (·.inUse)).all (·.isSane) = true := by
    rw [hfiles, List.all_append, List.all_cons, w3, List.all_nil, List.all_eq_true.mpr]
    · rfl
    · intro d hd
      obtain ⟨hd, hu⟩ := List.mem_filter.mp hd
      exact c.toLoose.sane hd (by simpa using hu)
  have heb : e.getFile m.hdr b' = .error .fileNumberMismatch := by
    unfold ADirent.getFile; rw [w5]
  refine ⟨mountRec m.hdr b' (setDirent ds 64 e), by rw [← hmr] at w8; exact w8, by
    show AImg.open b' = _
    rw [open_scan w1, if_pos hsane], ?_, ?_, ?_, ?_⟩
  · show ((setDirent ds 64 e).filter (·.inUse)).map (fun d => (d.filename, d.getFile m.hdr b')) = _
    rw [hfiles, List.map_append, List.map_cons, List.map_nil, w4, heb]
    congr 1
    rw [AImg.listing, hf]
    apply List.map_congr_left
    intro d hd
    obtain ⟨hd, hu⟩ := List.mem_filter.mp hd
    rw [w6 d hd (by simpa using hu)]
  · have hfd : (mountRec m.hdr b' (setDirent ds 64 e)).findDirent (norm83 name) = .ok e := by
      unfold AImg.findDirent
      rw [show (mountRec m.hdr b' (setDirent ds 64 e)).files = ds.filter (·.inUse) ++ [e] from hfiles, List.find?_append]
      have : (ds.filter (·.inUse)).find? (fun d => d.filename == norm83 name) = none := by
        rw [List.find?_eq_none]
        intro d hd
        obtain ⟨hd, hu⟩ := List.mem_filter.mp hd
        simpa using hfresh' d hd (by simpa using hu)
      rw [this]
      simp [w4]
    unfold AImg.findFile
    rw [hfd]
    exact heb
  · apply delete_unreadable w1 hsane (i := 64) (d := e) _ w4 _ w5
    · rw [getElem?_setDirent (by omega), if_pos rfl]
    · intro j x hj hx
      rw [getElem?_setDirent (by omega), if_neg (by omega)] at hx
      exact hfresh' x (List.mem_of_getElem? hx) (hall x (List.mem_of_getElem? (i := j) (by rw [List.getElem?_take, if_pos hj, hx])))
  · rw [← hneed]; exact w7

/-- `n` one-byte files on a blank volume -/
theorem files_on {h : AHeader} {b0 : Bytes} (c0 : Consistent h b0 []) (hp : 64 ≤ (freePool h b0).length)
    (hone : (pieces h [7]).length = 1) : ∀ n, n ≤ 64 → ∃ b ds, Consistent h b ds ∧ ds.length = n ∧
    (freePool h b).length = (freePool h b0).length - n ∧
    ∀ d ∈ ds, d.inUse = true ∧ d.mydos = false ∧ ∃ k, k < n ∧ d.filename = nameN k := by
  intro n
  induction n with
  | zero => intro _; exact ⟨b0, [], c0, rfl, rfl, by simp⟩
  | succ n ih =>
    intro hn
    obtain ⟨b, ds, c, h2, h3, h4⟩ := ih (by omega)
    have hc := nameN_canon n (by omega)
    have hfree : getFreeDirent ds = n := by rw [getFreeDirent_full (fun d hd => (h4 d hd).1), h2]
    obtain ⟨b', order, map', e, w, nf, c', _⟩ := writeFile_ok c (name := nameN n) (data := [7]) (by simp) hc.2 (by omega)
      (by
        intro d hd _ he
        obtain ⟨k, hk, hn⟩ := (h4 d hd).2.2
        rw [hn, hc.1] at he
        exact nameN_inj n (by omega) k hk he) (by rw [hone]; omega)
    obtain ⟨fm1, _⟩ := freeMap_after c.toLoose w.comm w.res.mlen
    have hset : setDirent ds (getFreeDirent ds) e = ds ++ [e] := by
      unfold setDirent; rw [if_neg (by omega)]
    rw [hset] at c'
    refine ⟨b', ds ++ [e], c', by simp [h2], ?_, ?_⟩
    · have : freePool h b' = (freePool h b).drop (pieces h [7]).length := by
        show freeList (freeMap h b') = _
        rw [fm1, w.res.rest]
      rw [this, List.length_drop, h3, hone]; omega
    · intro d hd
      rcases List.mem_append.mp hd with hd | hd
      · obtain ⟨q1, q2, k, q3, q4⟩ := h4 d hd
        exact ⟨q1, q2, k, by omega, q4⟩
      · rw [List.mem_singleton.mp hd, nf.entry]
        refine ⟨rfl, rfl, n, by omega, ?_⟩
        show norm83 (nameN n) = _
        exact hc.1

/-- A double density volume with 64 files: a 65th file `NEW` is "written" and listed, and can neither be read nor deleted. -/
example : ∃ m m', (∃ ds, Mounted m ds) ∧ m.files.length = 64 ∧
    AImg.writeFile [0x4e, 0x45, 0x57] [1, 2, 3] m = (.ok (), m') ∧ m'.files.length = 65 ∧
    m'.findFile [0x4e, 0x45, 0x57] = .error .fileNumberMismatch ∧
    AImg.deleteFile [0x4e, 0x45, 0x57] m' = (.error .fileNumberMismatch, m') := by
  obtain ⟨b, ds, c, h2, h3, h4⟩ := files_on ddDisk_consistent (by rw [ddDisk_pool]; omega) (by decide) 64 (by omega)
  have hf : ds.filter (·.inUse) = ds := by
    rw [List.filter_eq_self]; intro d hd; exact (h4 d hd).1
  have hnew : ∀ k, k < 64 → nameN k ≠ [0x4e, 0x45, 0x57] := by decide +kernel
  have hnn : norm83 [0x4e, 0x45, 0x57] = [0x4e, 0x45, 0x57] := by decide
  obtain ⟨m', k1, _, k3, k4, k5, _⟩ := C51_wide_not_refused (name := [0x4e, 0x45, 0x57]) (data := [1, 2, 3]) (mounted_mountRec c)
    rfl (by intro d hd; exact (h4 d (List.mem_filter.mp hd).1).2.1) (by
      show (ds.filter (·.inUse)).length = 64
      rw [hf, h2]) (by decide) (by
      intro hx
      obtain ⟨d, hd, he⟩ := List.mem_map.mp hx
      obtain ⟨_, _, k, hk, hn⟩ := h4 d (List.mem_filter.mp hd).1
      rw [hnn, hn] at he
      exact hnew k hk he) (by simp) (by
      show sectorsNeeded ddH 3 ≤ (freePool ddH b).length
      rw [h3, ddDisk_pool]; decide)
  rw [hnn] at k4 k5
  refine ⟨mountRec ddH b ds, m', ⟨ds, mounted_mountRec c⟩, by show (ds.filter (·.inUse)).length = 64; rw [hf, h2], k1, ?_, k4, k5⟩
  have := congrArg List.length k3
  rw [AImg.listing, AImg.listing, List.length_append, List.length_map, List.length_map] at this
  have h64 : (mountRec ddH b ds).files.length = 64 := by show (ds.filter (·.inUse)).length = 64; rw [hf, h2]
  rw [h64] at this
  exact this

end Atr
