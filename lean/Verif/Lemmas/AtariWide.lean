import Verif.Lemmas.AtariFull
import Verif.Lemmas.AtariLeft
/-! # Writing to directory slots above 63: the file number does not fit into the link bytes -/
namespace Atr

/-- an Atari DOS entry with a file number above 63 cannot be read, whatever its sectors hold -/
theorem readChain_past64 {h : AHeader} {b : Bytes} {d : ADirent} (g : h.Geom b.length) (hss : 3 ≤ h.sectorSize)
    (hm : d.mydos = false) (hfn : 64 ≤ d.fileNum) (hs : d.isSane = true) {s : Nat} (hst : d.startingSector = (s : Int))
    (hd : h.DataSec s) : d.readChain h b = .error .fileNumberMismatch := by
  unfold ADirent.readChain
  rw [hst, hs, Int.toNat_natCast]
  simp only [Bool.not_true, Bool.false_eq_true, if_false]
  rw [if_neg (by omega), ADirent.readLoop, ADirent.readSector]
  simp only [getRawBytes_data (b := b) g hd]
  have hl := length_sec g hd
  have : d.processRaw ⟨s, []⟩ (sec h b s) = .error .fileNumberMismatch := by
    unfold ADirent.processRaw
    rw [if_neg (by omega)]
    have := UInt8.toNat_lt ((sec h b s).getD ((sec h b s).length - 3) 0)
    simp only [hm, Bool.false_eq_true, if_false]
    rw [if_pos (by omega)]
  rw [this]

/-- an Atari DOS file that can be read has a file number below 64 -/
theorem readChain_lt64 {h : AHeader} {b : Bytes} {d : ADirent} {l} (hl : d.readChain h b = .ok l) (hm : d.mydos = false) :
    d.fileNum < 64 := by
  unfold ADirent.readChain at hl
  split at hl
  · exact absurd hl (by simp)
  split at hl
  · exact absurd hl (by simp)
  rw [ADirent.readLoop] at hl
  cases hr : d.readSector h b { cur := d.startingSector.toNat, seen := [] } with
  | error e => rw [hr] at hl; exact absurd hl (by simp)
  | ok x =>
    unfold ADirent.readSector at hr
    split at hr
    · exact absurd hr (by simp)
    rename_i raw _ _ _
    cases hp : d.processRaw { cur := d.startingSector.toNat, seen := [] } raw with
    | error e => rw [hp] at hr; exact absurd hr (by simp)
    | ok y =>
      unfold ADirent.processRaw at hp
      split at hp
      · exact absurd hp (by simp)
      simp only [hm, Bool.false_eq_true, if_false] at hp
      split at hp
      · exact absurd hp (by simp)
      rename_i hne
      have := UInt8.toNat_lt (raw.getD (raw.length - 3) 0)
      omega

theorem parse_number {h : AHeader} {i : Nat} {e : Bytes} {d : ADirent} (hp : ADirent.parse h i e = .ok d) : d.fileNum = i := by
  unfold ADirent.parse at hp
  split at hp
  · injection hp with hp
    rw [← hp]
  · exact absurd hp (by simp)

/-- a live Atari DOS file of a consistent volume is in one of the first 64 slots -/
theorem Loose.slot_lt {h b ds} (c : Loose h b ds) {i : Nat} {d : ADirent} (hd : ds[i]? = some d) (hu : d.inUse = true)
    (hm : d.mydos = false) : i < 64 := by
  obtain ⟨l, l1, _⟩ := c.chains d (List.mem_of_getElem? hd) hu
  obtain ⟨x, _, hp, _⟩ := (scanDir_ok c.dir).2 i d hd
  have := parse_number hp
  have := readChain_lt64 l1 hm
  omega

/-- Writing when the first 64 slots are used and the directory sectors have room for another entry. -/
theorem write_past64 {h b ds} (c : Consistent h b ds) {name data : Bytes} (hne : data ≠ []) (h0 : (0 : UInt8) ∉ name)
    (h64 : 64 ≤ getFreeDirent ds) (hroom : 16 * (getFreeDirent ds + 1) ≤ 8 * h.sectorSize)
    (hk : (pieces h data).length ≤ (freePool h b).length) :
    ∃ b' e, Scans h b' (setDirent ds (getFreeDirent ds) e) ∧ e.inUse = true ∧ e.isSane = true ∧ e.filename = norm83 name ∧
      e.readChain h b' = .error .fileNumberMismatch ∧
      (∀ d ∈ ds, d.inUse = true → d.getFile h b' = d.getFile h b) ∧
      freePool h b' = (freePool h b).drop (pieces h data).length ∧
      AImg.writeFile name data (mountRec h b ds) = (.ok (), mountRec h b' (setDirent ds (getFreeDirent ds) e)) := by
  obtain ⟨b', order, map', w⟩ := writeBody_room (name := name) c.toLoose hne hroom hk
  have g := c.geom
  have g' : h.Geom b'.length := by rw [w.comm.len]; exact g
  obtain ⟨und, uall⟩ := w.res.user c.toLoose
  obtain ⟨k1, k2, k3⟩ := getFreeDirent_spec ds
  obtain ⟨p1, p2, p3⟩ := pieces_props h data c.sectorSize hne
  obtain ⟨fm1, fm2⟩ := freeMap_after c.toLoose w.comm w.res.mlen
  have hss := c.sectorSize
  obtain ⟨ln1, ln2⟩ := linkSectors_nums' (ss := h.sectorSize) (fn := getFreeDirent ds) (by omega) (pieces h data) order w.res.len.symm
    (fun x hx => (p1 x hx).2)
  have hlen : (pieces h data).length = order.length := w.res.len.symm
  have hone : order ≠ [] := by
    intro he; rw [he] at hlen; exact p3 (List.length_eq_zero_iff.mp hlen)
  have hcount : order.length ≤ h.maxSectors := nodup_bound und (fun x hx => ⟨(uall x hx).1.1, (uall x hx).1.2.1⟩)
  have hc720 : order.length ≤ 720 := nodup_length_le 720 order und (fun x hx => (uall x hx).2.1)
  have hf : UserSec h (order.headD 0) ∧ order.headD 0 < 720 := by
    cases order with
    | nil => exact absurd rfl hone
    | cons n ns => exact ⟨(uall n (by simp)).1, (uall n (by simp)).2.1⟩
  obtain ⟨r1, r2⟩ := newEntry_reread g name (getFreeDirent ds) (pieces h data).length (order.headD 0) h0
    (by omega) (by omega) (by have := hf.1.1; omega) hf.1.2.1 (by omega)
  generalize he : newEntry name (getFreeDirent ds) (pieces h data).length (order.headD 0) = e at r1 r2
  have heu : e.inUse = true := by rw [← he]; rfl
  have hsane : e.isSane = true := by rw [← he]; rfl
  have hlds : (setDirent ds (getFreeDirent ds) e).length = max ds.length (getFreeDirent ds + 1) := length_setDirent k1 e
  have hq : 16 * (setDirent ds (getFreeDirent ds) (rawEntry name (getFreeDirent ds) (pieces h data).length (order.headD 0))).length
      ≤ 8 * h.sectorSize := by
    rw [length_setDirent k1]
    have := c.dirLen
    omega
  have hslu : ∀ x ∈ linkSectors WSector.setNextAtari (getFreeDirent ds) ((pieces h data).map (WSector.ofData h.sectorSize)) order,
      UserSec h x.num := by
    intro x hx
    have : x.num ∈ order := by
      rw [← ln1]; exact List.mem_map_of_mem hx
    exact (uall _ this).1
  obtain ⟨a1, a2, a3⟩ := dir_after c w.comm hq (ds' := setDirent ds (getFreeDirent ds) e)
    (by rw [length_setDirent k1, length_setDirent k1]) (by rw [hlds]; omega) hslu
    (by
      intro i r d hr hd
      rw [getElem?_setDirent k1] at hr hd
      by_cases hi : i = getFreeDirent ds
      · rw [if_pos hi] at hr hd
        injection hr with hr; injection hd with hd
        rw [← hr, ← hd, hi, parse_encode, r1]
        exact ⟨rfl, Or.inl heu⟩
      · rw [if_neg hi] at hr hd
        rw [hd] at hr; injection hr with hr
        rw [← hr]
        obtain ⟨_, _, _, h4⟩ := (scanDir_ok c.dir).2 i d hd
        exact ⟨c.stable i d hd, h4⟩)
  have hsc : Scans h b' (setDirent ds (getFreeDirent ds) e) :=
    ⟨a1, c.sectorSize, c.size, c.ed, by rw [fm2]; exact c.vtocCode, a2⟩
  have hall : ((setDirent ds (getFreeDirent ds) e).filter (·.inUse)).all (·.isSane) = true := by
    rw [List.all_eq_true]
    intro d hd
    obtain ⟨hd, hu⟩ := List.mem_filter.mp hd
    rcases mem_setDirent k1 hd with rfl | ⟨i, _, hi⟩
    · exact hsane
    · exact c.sane (List.mem_of_getElem? hi) hu
  refine ⟨b', e, hsc, heu, hsane, by rw [← he]; rfl, ?_, ?_, ?_, ?_⟩
  · exact readChain_past64 g' (by omega) (by rw [← he]; rfl) (by rw [← he]; exact h64) hsane
      (s := order.headD 0) (by rw [← he]; rfl) (hf.1.data g)
  · intro d hd hu
    obtain ⟨l, l1, l2, l3, l4⟩ := c.chains d hd hu
    have hsec : ∀ x ∈ l, sec h b' x.1 = sec h b x.1 := by
      intro x hx
      apply sec_after c.toLoose w.comm w.slots (l4 x hx).1
      rw [ln1]
      intro hm
      exact (l4 x hx).2.1 (uall _ hm).2.2
    exact getFile_frame g w.comm.len l1 (fun x hx => ⟨(l4 x hx).1.data g, (l4 x hx).2.2⟩) l2 hsec
  · show freeList (freeMap h b') = _
    rw [fm1, w.res.rest]
  · unfold AImg.writeFile AImg.transaction
    rw [w.body]
    show AImg.getMetadata { mountRec h b ds with bytes := b' } = _
    rw [getMetadata_scan hsc rfl rfl rfl (Or.inl rfl), if_pos hall]

/-- deleting a file whose chain cannot be read: nothing happens but the exception -/
theorem delete_unreadable {h b ds} (c : Scans h b ds) (hall : (ds.filter (·.inUse)).all (·.isSane) = true) {name : Bytes} {i : Nat}
    {d : ADirent} {e : Err} (hi : ds[i]? = some d) (hn : d.filename = name)
    (hbefore : ∀ (j : Nat) (x : ADirent), j < i → ds[j]? = some x → x.filename ≠ name) (hr : d.readChain h b = .error e) :
    AImg.deleteFile name (mountRec h b ds) = (.error e, mountRec h b ds) := by
  have hfind : findDirentIdx ds name = .ok (i, d) := by
    obtain ⟨hil, hid⟩ := List.getElem?_eq_some_iff.mp hi
    unfold findDirentIdx
    have : ds.findIdx? (fun d => d.filename == name) = some i := by
      rw [List.findIdx?_eq_some_iff_getElem]
      refine ⟨hil, by rw [hid]; simp [hn], ?_⟩
      intro j hj
      have := hbefore j _ hj (List.getElem?_eq_getElem (by omega))
      simpa using this
    rw [this]
    simp only [List.getD_eq_getElem?_getD, hi, Option.getD_some]
  have hbody : AImg.deleteBody name (mountRec h b ds) = (.error e, mountRec h b ds) := by
    unfold AImg.deleteBody
    rw [getDirectory_eq (m := mountRec h b ds) (openHeader_geom c.opens) c.size (openHeader_geom c.opens).ni c.dir, hall]
    simp only
    rw [hfind]
    simp only
    have : d.readChain (mountRec h b ds).hdr (mountRec h b ds).bytes = .error e := hr
    simp only [this]
    rfl
  unfold AImg.deleteFile AImg.transaction
  rw [hbody]
  simp only
  have : (if e.isAtr = true then (mountRec h b ds).rollback (mountRec h b ds).beginTransaction else mountRec h b ds)
      = mountRec h b ds := by
    split
    · exact rollback_id _
    · rfl
  rw [this, getMetadata_scan c rfl rfl rfl (Or.inl rfl), if_pos hall]

end Atr
