import Verif.Lemmas.AtariPreserve
/-! # Deleting and shredding -/
namespace Atr

/-- the entry a deleted file leaves behind -/
def deadEntry (d : ADirent) : ADirent :=
  { d with inUse := false, deleted := true, flag := UInt8.ofNat d.markDeleted.encodeFlag, isSane := true }

theorem deadEntry_reread {h : AHeader} {i : Nat} {d : ADirent} (hd : ADirent.parse h i d.encode = .ok d) :
    ADirent.parse h i d.markDeleted.encode = .ok (deadEntry d) ∧ ADirent.parse h i (deadEntry d).encode = .ok (deadEntry d) ∧
    (deadEntry d).flag ≠ 0 ∧ (deadEntry d).inUse = false ∧ (deadEntry d).filename = d.filename := by
  rw [parse_encode] at hd
  injection hd with hd
  have e1 : i = d.fileNum := by rw [← hd]; rfl
  have e2 : d.numSectors % 65536 = d.numSectors := by
    have := congrArg ADirent.numSectors hd; exact this
  have e3 : d.startingSector % 65536 = d.startingSector := by
    have := congrArg ADirent.startingSector hd; exact this
  have e4 : rstripWs (rstripNul (encS 8 d.basename)) = d.basename := by
    have := congrArg ADirent.basename hd; exact this
  have e5 : rstripWs (rstripNul (encS 3 d.ext)) = d.ext := by
    have := congrArg ADirent.ext hd; exact this
  refine ⟨?_, ?_, ?_, rfl, rfl⟩
  · rw [parse_encode]
    congr 1
    simp only [ADirent.reread, ADirent.markDeleted, deadEntry, e2, e3, e4, e5, ← e1, ADirent.sanityCheck]
    rfl
  · rw [parse_encode]
    congr 1
    have : (deadEntry d).encodeFlag = d.markDeleted.encodeFlag := rfl
    simp only [ADirent.reread, this]
    simp only [deadEntry, e2, e3, e4, e5, ← e1, ADirent.sanityCheck]
    rfl
  · intro h0
    have hf : (UInt8.ofNat d.markDeleted.encodeFlag).toNat = d.markDeleted.encodeFlag := by
      rw [toNat_ofNat, Nat.mod_eq_of_lt (encodeFlag_lt _)]
    have h1 : d.markDeleted.encodeFlag = 0 := by
      rw [← hf]; show (deadEntry d).flag.toNat = 0; rw [h0]; rfl
    have h2 := (encodeFlag_bits d.markDeleted).2.2.2.2.2.2.2
    rw [h1] at h2
    simp [ADirent.markDeleted] at h2

/-- effect of a successful delete of entry `i` -/
structure Deleted (h : AHeader) (b b' : Bytes) (ds : List ADirent) (i : Nat) (d : ADirent) (l : List (Nat × Nat × Nat))
    (map' : List Bool) : Prop where
  mlen : map'.length = 1280
  bits : ∀ s : Nat, map'[s]? = if s ∈ l.map (·.1) then some true else (freeMap h b ++ List.replicate 560 false)[s]?
  comm : Committed h b b' (newVtoc h b map') [] (calcDirSectors h (ds.set i d.markDeleted))
  slots : (calcSectors (WSector.blank h.sectorSize) ((ds.set i d.markDeleted).map ADirent.encode)).length ≤ 8

theorem findDirentIdx_live {h b ds} (c : Consistent h b ds) {i : Nat} {d : ADirent} (hd : ds[i]? = some d) (hu : d.inUse = true) :
    findDirentIdx ds d.filename = .ok (i, d) := by
  have hi := (List.getElem?_eq_some_iff.mp hd).1
  have : ds.findIdx? (fun e => e.filename == d.filename) = some i := by
    rw [List.findIdx?_eq_some_iff_getElem]
    refine ⟨hi, ?_, ?_⟩
    · rw [(List.getElem?_eq_some_iff.mp hd).2]; simp
    · intro j hj
      have := c.first i j d ds[j] hd (List.getElem?_eq_getElem _) hu hj
      simpa using this
  unfold findDirentIdx
  rw [this]
  simp only
  rw [List.getD_eq_getElem?_getD, hd]; rfl

theorem deleteBody_ok {h b ds} (c : Consistent h b ds) {i : Nat} {d : ADirent} 
    {l} (hl : d.readChain h b = .ok l) (hfind : findDirentIdx ds d.filename = .ok (i, d))
    (hn : ∀ x ∈ l, x.1 < 1280) :
    ∃ b' map', Deleted h b b' ds i d l map' ∧
      AImg.deleteBody d.filename (mountRec h b ds) = (.ok (), { mountRec h b ds with bytes := b' }) := by
  have g := c.geom
  have hss := c.sectorSize
  have d360 : h.DataSec 360 := dataSec_of g (by omega) (by have := c.size; omega)
  have hl360 := length_sec g d360
  have hm := length_freeMap g hss c.size
  obtain ⟨map', f1, f2, f3⟩ := freeSectors_ok (l.map (·.1)) (freeMap h b ++ List.replicate 560 false) (by
    intro n hn'
    obtain ⟨x, hx, rfl⟩ := List.mem_map.mp hn'
    have := hn x hx
    rw [List.length_append, List.length_replicate, hm]; omega)
  have hml : map'.length = 1280 := by rw [f2, List.length_append, List.length_replicate, hm]
  obtain ⟨s360, e1, e2, e3⟩ := calcBitmap_eq (h := h) (m := mountRec h b ds) rfl g hss c.size hml
  have hlen_ds : 16 * (ds.set i d.markDeleted).length ≤ 8 * h.sectorSize := by
    rw [List.length_set]; exact c.dirLen
  have h16 : 16 ∣ h.sectorSize := by rcases hss with h | h <;> rw [h] <;> decide
  obtain ⟨z, q1, q2, q3, q4⟩ := calcSectors_spec h16 (by omega) ((ds.set i d.markDeleted).map ADirent.encode)
    (by intro x hx; obtain ⟨d, _, rfl⟩ := List.mem_map.mp hx; simp)
  have hq := calcSectors_le c.toLoose hlen_ds
  generalize hcs : calcSectors (WSector.blank h.sectorSize) ((ds.set i d.markDeleted).map ADirent.encode) = ws at q2 q3 q4 hq
  obtain ⟨w1, w2, w3, hcom⟩ := commit_spec (sl := []) (s360 := s360) g hss c.size (length_newVtoc hl360 hss hml) ⟨e1, e2⟩
    (by simp) (by simp) q3 hq
  have hdirs : calcDirSectors h (ds.set i d.markDeleted) = numberDirSectors 361 ws := by rw [calcDirSectors, hcs]
  refine ⟨commit h b (newVtoc h b map') [] s360 (numberDirSectors 361 ws), map', ⟨hml, f3, ?_, ?_⟩, ?_⟩
  · rw [hdirs]; exact hcom
  · rw [hcs]; exact hq
  · have hfit := d360.fit g
    have hnv := length_newVtoc hl360 hss hml
    have hlen1 := length_splice b (newVtoc h b map') (h.dpos 360) (by omega)
    have g1 : h.Geom (splice b (h.dpos 360) (newVtoc h b map')).length := by rw [hlen1]; exact g
    unfold AImg.deleteBody
    rw [getDirectory_mount c]
    simp only
    rw [hfind]
    simp only
    have hhdr : (mountRec h b ds).hdr = h := rfl
    have hbytes : (mountRec h b ds).bytes = b := rfl
    rw [hhdr, hbytes, hl]
    simp only
    rw [getVtocObject_eq c]
    simp only
    rw [f1]
    simp only
    rw [e3]
    simp only [hhdr, hbytes, hdirs]
    rw [writeSectors_eq [s360] _ g1 w2]
    simp only
    have g3 : h.Geom (writeAll h (splice b (h.dpos 360) (newVtoc h b map')) [s360]).length := by
      rw [length_writeAll _ _ g1 w2]; exact g1
    rw [writeSectors_eq (numberDirSectors 361 ws) _ g3 w3]
    rw [commit, writeAll_append, writeAll_append]
    rfl

/-- everything about the delete of a live file -/
theorem delete_preserves {h b b' ds} (c : Consistent h b ds) {i : Nat} {d : ADirent} (hd : ds[i]? = some d) (hu : d.inUse = true)
    {l map'} (hl : d.readChain h b = .ok l) (w : Deleted h b b' ds i d l map') :
    Consistent h b' (ds.set i (deadEntry d)) ∧
    (∀ e ∈ ds, e.inUse = true → e.readChain h b' = e.readChain h b ∧ e.getFile h b' = e.getFile h b) ∧
    (∀ s, IsFree h b' s ↔ IsFree h b s ∨ (s ∈ l.map (·.1) ∧ s < 720)) := by
  have g := c.geom
  have hi := (List.getElem?_eq_some_iff.mp hd).1
  obtain ⟨fm1, fm2⟩ := freeMap_after c.toLoose w.comm w.mlen
  have hm := length_freeMap g c.sectorSize c.size
  obtain ⟨l0, hl0, _, lnd, luser⟩ := c.chains d (List.mem_of_getElem? hd) hu
  have : l0 = l := by rw [hl] at hl0; injection hl0 with hl0; exact hl0.symm
  subst this
  have hfree : ∀ s, IsFree h b' s ↔ IsFree h b s ∨ (s ∈ l0.map (·.1) ∧ s < 720) := by
    intro s
    unfold IsFree
    rw [fm1, List.getElem?_take, w.bits]
    by_cases hs : s < 720
    · rw [if_pos hs, List.getElem?_append_left (by omega)]
      by_cases ho : s ∈ l0.map (·.1)
      · rw [if_pos ho]; simp [ho, hs]
      · rw [if_neg ho]; simp [ho]
    · rw [if_neg hs, List.getElem?_eq_none (by omega)]; simp [hs]
  obtain ⟨r1, r2, r3, r4, r5⟩ := deadEntry_reread (c.stable i d hd)
  have hset : ∀ (j : Nat) (e : ADirent), (ds.set i e)[j]? = if j = i then some e else ds[j]? := by
    intro j e
    rw [List.getElem?_set]
    by_cases hj : i = j
    · subst hj; simp [hi]
    · simp [hj, Ne.symm hj]
  obtain ⟨a1, a2, a3⟩ := dir_after c w.comm (ds' := ds.set i (deadEntry d)) (by rw [List.length_set]; exact c.dirLen)
    (by simp) (by simp) (by simp)
    (by
      intro j r e hr he
      rw [hset] at hr he
      by_cases hj : j = i
      · rw [if_pos hj] at hr he
        injection hr with hr; injection he with he
        rw [← hr, ← he, hj]; exact ⟨r1, Or.inr r3⟩
      · rw [if_neg hj] at hr he
        rw [he] at hr; injection hr with hr; rw [← hr]
        obtain ⟨_, _, _, h4⟩ := (scanDir_ok c.dir).2 j e he
        exact ⟨c.stable j e he, h4⟩)
  have hframe : ∀ e ∈ ds, e.inUse = true → ∃ l, e.readChain h b = .ok l ∧ e.readChain h b' = .ok l ∧ byteOrder l ≠ [] ∧
      (l.map (·.1)).Nodup ∧ (∀ x ∈ l, UserSec h x.1 ∧ ¬ IsFree h b x.1 ∧ x.2.2 ≤ h.sectorSize) ∧
      e.getFile h b' = e.getFile h b := by
    intro e he hu
    obtain ⟨l, l1, l2, l3, l4⟩ := c.chains e he hu
    have hsec : ∀ x ∈ l, sec h b' x.1 = sec h b x.1 := by
      intro x hx
      exact sec_after c.toLoose w.comm w.slots (l4 x hx).1 (by simp)
    refine ⟨l, l1, readChain_frame g l1 (fun x hx => (l4 x hx).1.data g) hsec, l2, l3, l4, ?_⟩
    exact getFile_frame g w.comm.len l1 (fun x hx => ⟨(l4 x hx).1.data g, (l4 x hx).2.2⟩) l2 hsec
  have hmem : ∀ e ∈ ds.set i (deadEntry d), e.inUse = true → ∃ j, j ≠ i ∧ ds[j]? = some e := by
    intro e he hu
    obtain ⟨j, hj⟩ := List.getElem?_of_mem he
    rw [hset] at hj
    by_cases h1 : j = i
    · rw [if_pos h1] at hj; injection hj with hj; rw [← hj, r4] at hu; cases hu
    · rw [if_neg h1] at hj; exact ⟨j, h1, hj⟩
  refine ⟨?_, ?_, hfree⟩
  · refine { opens := a1, sectorSize := c.sectorSize, size := c.size, ed := c.ed, vtocCode := by rw [fm2]; exact c.vtocCode,
             dir := a2, term := a3, stable := ?_, chains := ?_, disjoint := ?_, free := ?_, first := ?_ }
    · intro j e he
      rw [hset] at he
      by_cases hj : j = i
      · rw [if_pos hj] at he; injection he with he; rw [← he, hj]; exact r2
      · rw [if_neg hj] at he; exact c.stable j e he
    · intro e he heu
      obtain ⟨j, hj, hje⟩ := hmem e he heu
      obtain ⟨k, k1, k2, k3, k4, k5, _⟩ := hframe e (List.mem_of_getElem? hje) heu
      refine ⟨k, k2, k3, k4, ?_⟩
      intro x hx
      refine ⟨(k5 x hx).1, ?_, (k5 x hx).2.2⟩
      intro hf
      rcases (hfree _).mp hf with hf | hf
      · exact (k5 x hx).2.1 hf
      · obtain ⟨y, hy, hxy⟩ := List.mem_map.mp hf.1
        exact c.disjoint i j d e hd hje (Ne.symm hj) hu heu _ _ hl k1 y hy x hx hxy
    · intro j k e f he hf hjk heu hfu a a' ha ha'
      rw [hset] at he hf
      by_cases hj : j = i
      · rw [if_pos hj] at he; injection he with he; rw [← he, r4] at heu; cases heu
      · by_cases hk : k = i
        · rw [if_pos hk] at hf; injection hf with hf; rw [← hf, r4] at hfu; cases hfu
        · rw [if_neg hj] at he; rw [if_neg hk] at hf
          obtain ⟨l2, m1, m2, _⟩ := hframe e (List.mem_of_getElem? he) heu
          obtain ⟨l3, m3, m4, _⟩ := hframe f (List.mem_of_getElem? hf) hfu
          rw [m2] at ha; injection ha with ha; subst ha
          rw [m4] at ha'; injection ha' with ha'; subst ha'
          exact c.disjoint j k e f he hf hjk heu hfu _ _ m1 m3
    · intro s hs
      rcases (hfree s).mp hs with hs | hs
      · exact c.free s hs
      · obtain ⟨y, hy, rfl⟩ := List.mem_map.mp hs.1
        exact (luser y hy).1
    · intro j k e f he hf heu hkj
      rw [hset] at he hf
      by_cases hj : j = i
      · rw [if_pos hj] at he; injection he with he; rw [← he, r4] at heu; cases heu
      · rw [if_neg hj] at he
        by_cases hk : k = i
        · rw [if_pos hk] at hf; injection hf with hf
          rw [← hf, r5]
          exact c.first j i e d he hd heu (by omega)
        · rw [if_neg hk] at hf
          exact c.first j k e f he hf heu hkj
  · intro e he heu
    obtain ⟨k, k1, k2, _, _, _, k3⟩ := hframe e he heu
    exact ⟨by rw [k1, k2], k3⟩

/-! ### shred -/

/-- bytes after filling the sectors of the list that are marked free -/
theorem shredLoop_spec {h : AHeader} (fill : UInt8) (map : List Bool) (hss : 0 < h.sectorSize) :
    ∀ (is : List Nat) (m : AImg), m.hdr = h → h.Geom m.bytes.length → is.Nodup →
    (∀ i ∈ is, 1 ≤ i ∧ i ≤ h.maxSectors ∧ i < map.length) → (∀ i : Nat, map[i]? = some true → h.DataSec i) →
    ∃ b', AImg.shredLoop fill map is m = (.ok (), { m with bytes := b' }) ∧ b'.length = m.bytes.length ∧
      (∀ s, s ∈ is → map[s]? = some true → sec h b' s = List.replicate h.sectorSize fill) ∧
      (∀ k, (∀ s, s ∈ is → map[s]? = some true → k < h.dpos s ∨ h.dpos s + h.sectorSize ≤ k) → b'[k]? = m.bytes[k]?) := by
  intro is
  induction is with
  | nil => intro m hm g _ _ _; exact ⟨m.bytes, rfl, rfl, by simp, by simp⟩
  | cons i is ih =>
    intro m hm g hnd hr hf
    obtain ⟨r1, r2, r3⟩ := hr i (by simp)
    obtain ⟨pos, size, hp⟩ : ∃ pos size, h.getPos i = .ok (pos, size) := by
      unfold AHeader.getPos
      have : h.sectorIsValid i = true := by
        unfold AHeader.sectorIsValid
        have := g.label
        simp; omega
      rw [this]
      simp only [Bool.not_true, Bool.false_eq_true, if_false]
      split <;> exact ⟨_, _, rfl⟩
    unfold AImg.shredLoop
    subst hm
    rw [hp]
    simp only
    cases hmap : map[i]? with
    | none => rw [List.getElem?_eq_none_iff] at hmap; omega
    | some v =>
      cases v with
      | false =>
        simp only
        obtain ⟨b', q1, q2, q3, q4⟩ := ih m rfl g (List.nodup_cons.mp hnd).2 (fun j hj => hr j (by simp [hj])) hf
        refine ⟨b', q1, q2, ?_, ?_⟩
        · intro s hs hst
          rcases List.mem_cons.mp hs with rfl | hs
          · rw [hmap] at hst; cases hst
          · exact q3 s hs hst
        · intro k hk
          exact q4 k (fun s hs hst => hk s (by simp [hs]) hst)
      | true =>
        simp only
        have hdi := hf i hmap
        have hpp := AHeader.getPos_data g hdi.1 hdi.2
        rw [hpp] at hp
        injection hp with hp
        injection hp with hp1 hp2
        subst hp1; subst hp2
        have hfit := hdi.fit g
        have hfs : fillSlice m.bytes (m.hdr.dpos i) (m.hdr.dpos i + m.hdr.sectorSize) fill
            = splice m.bytes (m.hdr.dpos i) (List.replicate m.hdr.sectorSize fill) := by
          unfold fillSlice
          congr 2; omega
        have hl : (splice m.bytes (m.hdr.dpos i) (List.replicate m.hdr.sectorSize fill)).length = m.bytes.length :=
          length_splice _ _ _ (by rw [List.length_replicate]; omega)
        have hi_nd := List.nodup_cons.mp hnd
        obtain ⟨b', q1, q2, q3, q4⟩ := ih { m with bytes := splice m.bytes (m.hdr.dpos i) (List.replicate m.hdr.sectorSize fill) } rfl
          (by simp only; rw [hl]; exact g) hi_nd.2 (fun j hj => hr j (by simp [hj])) hf
        rw [hfs]
        refine ⟨b', q1, by rw [q2]; exact hl, ?_, ?_⟩
        · intro s hs hst
          rcases List.mem_cons.mp hs with rfl | hs
          · have hsame := sec_splice_same (b := m.bytes) (v := List.replicate m.hdr.sectorSize fill) g hdi (by simp)
            rw [← hsame]
            unfold sec
            apply List.ext_getElem?
            intro k
            rw [getElem?_slice, getElem?_slice]
            split
            · apply q4
              intro t ht htt
              have hne : t ≠ s := by rintro rfl; exact hi_nd.1 ht
              have := AHeader.dpos_disjoint (h := m.hdr) (hf t htt).1 hdi.1 hne
              omega
            · rfl
          · exact q3 s hs hst
        · intro k hk
          rw [q4 k (fun s hs hst => hk s (by simp [hs]) hst)]
          simp only
          rw [getElem?_splice _ _ _ _ (by rw [List.length_replicate]; omega), List.length_replicate]
          have := hk i (by simp) hmap
          split
          · rfl
          · rw [if_neg (by omega)]

/-- effect of a shred -/
structure Shredded (h : AHeader) (b b' : Bytes) (fill : UInt8) : Prop where
  len : b'.length = b.length
  filled : ∀ s, IsFree h b s → sec h b' s = List.replicate h.sectorSize fill
  kept : ∀ k, (∀ s, IsFree h b s → k < h.dpos s ∨ h.dpos s + h.sectorSize ≤ k) → b'[k]? = b[k]?

theorem padMap_true {h b ds} (c : Consistent h b ds) (i : Nat) :
    (freeMap h b ++ List.replicate 560 false)[i]? = some true ↔ IsFree h b i := by
  have hm := length_freeMap c.geom c.sectorSize c.size
  unfold IsFree
  by_cases hi : i < 720
  · rw [List.getElem?_append_left (by omega)]
  · rw [List.getElem?_append_right (by omega), List.getElem?_replicate, List.getElem?_eq_none (by omega)]
    simp

theorem shredBody_ok {h b ds} (c : Consistent h b ds) (fill : Nat) (hmax : h.maxSectors < 1280) :
    ∃ b', Shredded h b b' (UInt8.ofNat fill) ∧
      AImg.shredBody fill (mountRec h b ds) = (.ok (), { mountRec h b ds with bytes := b' }) := by
  have g := c.geom
  have hss := c.sectorSize
  have hm := length_freeMap g hss c.size
  have hlab := g.label
  obtain ⟨b', q1, q2, q3, q4⟩ := shredLoop_spec (h := h) (UInt8.ofNat fill) (freeMap h b ++ List.replicate 560 false) (by omega)
    (List.range' h.startingSectorLabel h.maxSectors) (mountRec h b ds) rfl g List.nodup_range'
    (by
      intro i hi
      rw [List.mem_range'_1] at hi
      rw [List.length_append, List.length_replicate, hm]; omega)
    (by
      intro i hi
      exact (c.free i ((padMap_true c i).mp hi)).data g)
  have hmem : ∀ s, IsFree h b s → s ∈ List.range' h.startingSectorLabel h.maxSectors := by
    intro s hs
    obtain ⟨u1, u2, _⟩ := c.free s hs
    rw [List.mem_range'_1]
    omega
  refine ⟨b', ⟨q2, ?_, ?_⟩, ?_⟩
  · intro s hs
    exact q3 s (hmem s hs) ((padMap_true c s).mpr hs)
  · intro k hk
    apply q4
    intro s _ hst
    exact hk s ((padMap_true c s).mp hst)
  · unfold AImg.shredBody
    rw [getVtocObject_eq c]
    exact q1

theorem Shredded.sec {h b b' ds fill} (c : Consistent h b ds) (w : Shredded h b b' fill) {s : Nat} (d : h.DataSec s)
    (hs : ¬ IsFree h b s) : Atr.sec h b' s = Atr.sec h b s := by
  unfold Atr.sec
  apply List.ext_getElem?
  intro k
  rw [getElem?_slice, getElem?_slice]
  split
  · apply w.kept
    intro t ht
    have hne : t ≠ s := by rintro rfl; exact hs ht
    have := AHeader.dpos_disjoint (h := h) ((c.free t ht).data c.geom).1 d.1 hne
    omega
  · rfl

theorem rawEntries_eq {h : AHeader} {b b' : Bytes} (g : h.Geom b.length) (hni : h.numInitialSectors ≤ 3)
    (hs : ∀ s, 361 ≤ s → s ≤ 368 → sec h b' s = sec h b s) : rawEntries h b' = rawEntries h b := by
  have : slice b' (h.dpos 361) (h.dpos 361 + 8 * h.sectorSize) = slice b (h.dpos 361) (h.dpos 361 + 8 * h.sectorSize) := by
    apply List.ext_getElem?
    intro k
    rw [getElem?_slice, getElem?_slice]
    split
    · have hss := g.ssPos
      have hk : k / h.sectorSize < 8 := by rw [Nat.div_lt_iff_lt_mul hss]; omega
      have h1 := Nat.div_mul_le_self k h.sectorSize
      have h2 := Nat.lt_div_mul_add hss (a := k)
      generalize k / h.sectorSize = q at hk h1 h2
      have h3 := congrArg (fun z => z[k - q * h.sectorSize]?) (hs (361 + q) (by omega) (by omega))
      have h4 : h.dpos (361 + q) = h.dpos 361 + q * h.sectorSize := dpos_add h 361 q (by omega)
      simp only [sec, getElem?_slice, h4] at h3
      rw [if_pos (by omega), if_pos (by omega)] at h3
      rw [show h.dpos 361 + k = h.dpos 361 + q * h.sectorSize + (k - q * h.sectorSize) by omega]
      exact h3
    · rfl
  unfold rawEntries
  rw [this]

theorem shred_preserves {h b b' ds fill} (c : Consistent h b ds) (w : Shredded h b b' fill) :
    Consistent h b' ds ∧ freeMap h b' = freeMap h b ∧
    (∀ e ∈ ds, e.inUse = true → e.readChain h b' = e.readChain h b ∧ e.getFile h b' = e.getFile h b) := by
  have g := c.geom
  have hnf : ∀ s, 360 ≤ s → s ≤ 368 → sec h b' s = sec h b s := by
    intro s h1 h2
    apply w.sec c (dataSec_of g (by omega) (by have := c.size; omega))
    intro hf
    have := (c.free s hf).2.2.2
    omega
  have hraw := rawEntries_eq g g.ni (b := b) (b' := b') (fun s h1 h2 => hnf s (by omega) h2)
  have hfm : freeMap h b' = freeMap h b := by unfold freeMap; rw [hnf 360 (by omega) (by omega)]
  have hfree : ∀ s, IsFree h b' s ↔ IsFree h b s := by intro s; unfold IsFree; rw [hfm]
  have hfront : slice b' 0 16 = slice b 0 16 := by
    apply List.ext_getElem?
    intro k
    rw [getElem?_slice, getElem?_slice]
    split
    · apply w.kept
      intro s hs
      have := dpos_ge g c.sectorSize (c.free s hs).1
      omega
    · rfl
  have hframe : ∀ e ∈ ds, e.inUse = true → ∃ l, e.readChain h b = .ok l ∧ e.readChain h b' = .ok l ∧ byteOrder l ≠ [] ∧
      (l.map (·.1)).Nodup ∧ (∀ x ∈ l, UserSec h x.1 ∧ ¬ IsFree h b x.1 ∧ x.2.2 ≤ h.sectorSize) ∧
      e.getFile h b' = e.getFile h b := by
    intro e he hu
    obtain ⟨l, l1, l2, l3, l4⟩ := c.chains e he hu
    have hsec : ∀ x ∈ l, sec h b' x.1 = sec h b x.1 := by
      intro x hx
      exact w.sec c ((l4 x hx).1.data g) (l4 x hx).2.1
    refine ⟨l, l1, readChain_frame g l1 (fun x hx => (l4 x hx).1.data g) hsec, l2, l3, l4, ?_⟩
    exact getFile_frame g w.len l1 (fun x hx => ⟨(l4 x hx).1.data g, (l4 x hx).2.2⟩) l2 hsec
  refine ⟨?_, hfm, ?_⟩
  · refine { opens := by rw [openHeader_congr w.len hfront]; exact c.opens, sectorSize := c.sectorSize, size := c.size,
             ed := c.ed, vtocCode := by rw [hnf 360 (by omega) (by omega)]; exact c.vtocCode,
             dir := by rw [hraw]; exact c.dir, term := by rw [hraw]; exact c.term, stable := c.stable, chains := ?_,
             disjoint := ?_, free := fun s hs => c.free s ((hfree s).mp hs), first := c.first }
    · intro e he hu
      obtain ⟨l, l1, l2, l3, l4, l5, _⟩ := hframe e he hu
      exact ⟨l, l2, l3, l4, fun x hx => ⟨(l5 x hx).1, fun hf => (l5 x hx).2.1 ((hfree _).mp hf), (l5 x hx).2.2⟩⟩
    · intro j k e f he hf hjk heu hfu a a' ha ha'
      obtain ⟨l2, m1, m2, _⟩ := hframe e (List.mem_of_getElem? he) heu
      obtain ⟨l3, m3, m4, _⟩ := hframe f (List.mem_of_getElem? hf) hfu
      rw [m2] at ha; injection ha with ha; subst ha
      rw [m4] at ha'; injection ha' with ha'; subst ha'
      exact c.disjoint j k e f he hf hjk heu hfu _ _ m1 m3
  · intro e he hu
    obtain ⟨l, l1, l2, _, _, _, l3⟩ := hframe e he hu
    exact ⟨by rw [l1, l2], l3⟩

end Atr
