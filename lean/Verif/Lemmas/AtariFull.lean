import Verif.Lemmas.AtariMore
/-! # Writing to a full directory -/
namespace Atr

theorem getFreeDirent_full {ds : List ADirent} (hall : ∀ d ∈ ds, d.inUse = true) : getFreeDirent ds = ds.length := by
  unfold getFreeDirent
  have : ds.findIdx? (fun d => !d.inUse) = none := by
    rw [List.findIdx?_eq_none_iff]
    intro d hd
    simp [hall d hd]
  rw [this]

/-- the bytes of the first sectors of a list -/
theorem flatMap_data_take {ws : List WSector} {n : Nat} (hw : ∀ w ∈ ws, w.data.length = n) (k : Nat) :
    (ws.take k).flatMap (·.data) = (ws.flatMap (·.data)).take (k * n) := by
  induction ws generalizing k with
  | nil => simp
  | cons w ws ih =>
    cases k with
    | zero => simp
    | succ k =>
      rw [List.take_succ_cons, List.flatMap_cons, List.flatMap_cons, ih (fun x hx => hw x (by simp [hx]))]
      have := hw w (by simp)
      rw [List.take_append, List.take_of_length_le (l := w.data) (by rw [this, Nat.add_mul]; omega), this]
      congr 2
      rw [Nat.add_mul]; omega

theorem flatten_length_const (n : Nat) (l : List Bytes) (h : ∀ x ∈ l, x.length = n) : l.flatten.length = n * l.length := by
  induction l with
  | nil => rfl
  | cons a l ih =>
    rw [List.flatten_cons, List.length_append, ih (fun x hx => h x (by simp [hx])), h a (by simp), List.length_cons, Nat.mul_add]
    omega

theorem write_dirfull {h b ds} (c : Consistent h b ds) (hss : h.sectorSize = 128) (hmax : 369 ≤ h.maxSectors)
    (hlen : ds.length = 64) (hall : ∀ d ∈ ds, d.inUse = true) {name data : Bytes} (hne : data ≠ [])
    (hk : (pieces h data).length ≤ (freePool h b).length) :
    ∃ b' first, AImg.writeFile name data (mountRec h b ds) = (.ok (), mountRec h b' ds) ∧ AImg.open b' = .ok (mountRec h b' ds) ∧
      sec h b' 369 = (rawEntry name 64 (pieces h data).length first).encode ++ List.replicate 112 0 := by
  have g := c.geom
  have hss2 := c.sectorSize
  have hni := g.ni
  have hgf : getFreeDirent ds = 64 := by rw [getFreeDirent_full hall, hlen]
  obtain ⟨order, map', r⟩ := reserved_spec c.toLoose hk
  obtain ⟨und, uall⟩ := r.user c.toLoose
  obtain ⟨p1, p2, p3⟩ := pieces_props h data hss2 hne
  have d360 : h.DataSec 360 := dataSec_of g (by omega) (by omega)
  have hl360 := length_sec g d360
  have hpl : h.payloadBytes = (h.sectorSize : Int) - 3 := g.payload
  have hb : buildSectors h data = .ok ((pieces h data).map (WSector.ofData h.sectorSize)) := buildSectors_eq c.toLoose data
  obtain ⟨s360, e1, e2, e3⟩ := calcBitmap_eq (h := h) (m := mountRec h b ds) rfl g hss2 c.size r.mlen
  obtain ⟨l1, l2⟩ := linkSectors_nums' (ss := h.sectorSize) (fn := 64) (by omega) (pieces h data) order r.len.symm (fun x hx => (p1 x hx).2)
  generalize hsl : linkSectors WSector.setNextAtari 64 ((pieces h data).map (WSector.ofData h.sectorSize)) order = sl at l1 l2
  have hslu : ∀ w ∈ sl, UserSec h w.num ∧ w.data.length = h.sectorSize := by
    intro w hw
    refine ⟨?_, l2 w hw⟩
    have : w.num ∈ sl.map (·.num) := List.mem_map_of_mem hw
    rw [l1] at this
    exact (uall _ this).1
  have hlen_sl : sl.length = (pieces h data).length := by
    rw [← hsl, linkSectors_length]; simp
  have hfirst : firstSector sl = ((order.headD 0 : Nat) : Int) := by
    cases sl with
    | nil => simp at hlen_sl; exact absurd (List.length_eq_zero_iff.mp hlen_sl.symm) p3
    | cons w sl => rw [List.map_cons] at l1; rw [← l1]; rfl
  generalize hnd : rawEntry name 64 (pieces h data).length (order.headD 0) = nd
  have hset : setDirent ds 64 nd = ds ++ [nd] := by unfold setDirent; rw [if_neg (by omega)]
  obtain ⟨z, q1, q2, q3, q4⟩ := calcSectors_spec (ss := h.sectorSize) (by rw [hss]; decide) (by omega) ((ds ++ [nd]).map ADirent.encode)
    (by intro x hx; obtain ⟨d, _, rfl⟩ := List.mem_map.mp hx; simp)
  generalize hcs : calcSectors (WSector.blank h.sectorSize) ((ds ++ [nd]).map ADirent.encode) = ws at q2 q3 q4
  have hq : ws.length = 9 ∧ z = 112 := by
    rw [List.length_map, List.length_append, hlen, List.length_singleton, hss] at q4
    rw [hss] at q1
    omega
  have hdirs : calcDirSectors h (setDirent ds 64 nd) = numberDirSectors 361 ws := by
    rw [hset, calcDirSectors, hcs]
  obtain ⟨hn1, hn2⟩ := numberDirSectors_map ws 361
  have hfit := d360.fit g
  have hnv := length_newVtoc hl360 hss2 r.mlen
  have hlen1 := length_splice b (newVtoc h b map') (h.dpos 360) (by omega)
  have g1 : h.Geom (splice b (h.dpos 360) (newVtoc h b map')).length := by rw [hlen1]; exact g
  have w1 : Writable h sl := fun w hw => ⟨(hslu w hw).1.data g, (hslu w hw).2⟩
  have w2 : Writable h [s360] := by
    intro w hw; simp at hw; subst hw; rw [e1, e2]; exact ⟨d360, hnv⟩
  have hdn : ∀ w ∈ numberDirSectors 361 ws, 361 ≤ w.num ∧ w.num ≤ 369 := by
    intro w hw
    have : w.num ∈ (numberDirSectors 361 ws).map (·.num) := List.mem_map_of_mem hw
    rw [hn1, List.mem_range'_1] at this; omega
  have w3 : Writable h (numberDirSectors 361 ws) := by
    intro w hw
    have h1 := hdn w hw
    refine ⟨dataSec_of g (by omega) (by omega), ?_⟩
    have : w.data ∈ (numberDirSectors 361 ws).map (·.data) := List.mem_map_of_mem hw
    rw [hn2, List.mem_map] at this
    obtain ⟨w', hw', he⟩ := this
    rw [← he]; exact q3 w' hw'
  have g2 : h.Geom (writeAll h (splice b (h.dpos 360) (newVtoc h b map')) sl).length := by
    rw [length_writeAll _ _ g1 w1]; exact g1
  have g3 : h.Geom (writeAll h (writeAll h (splice b (h.dpos 360) (newVtoc h b map')) sl) [s360]).length := by
    rw [length_writeAll _ _ g2 w2]; exact g2
  generalize hb' : writeAll h (writeAll h (writeAll h (splice b (h.dpos 360) (newVtoc h b map')) sl) [s360]) (numberDirSectors 361 ws) = b'
  have hbl : b'.length = b.length := by
    rw [← hb', length_writeAll _ _ g3 w3, length_writeAll _ _ g2 w2, length_writeAll _ _ g1 w1, hlen1]
  have g' : h.Geom b'.length := by rw [hbl]; exact g
  have hbody : AImg.writeBody name data (mountRec h b ds) = (.ok (), { mountRec h b ds with bytes := b' }) := by
    unfold AImg.writeBody
    rw [getDirectory_mount c]
    simp only
    have hbb : buildSectors (mountRec h b ds).hdr data = .ok ((pieces h data).map (WSector.ofData h.sectorSize)) := hb
    rw [hbb]
    simp only
    rw [getVtocObject_eq c]
    simp only [List.length_map]
    rw [r.res]
    simp only
    rw [e3]
    simp only
    have hfn : (ADirent.setValues name 64).fileNum = 64 := by
      unfold ADirent.setValues; split <;> rfl
    have hhdr : (mountRec h b ds).hdr = h := rfl
    have hbytes : (mountRec h b ds).bytes = b := rfl
    simp only [hgf, hfn, hsl, hhdr, hbytes]
    rw [writeSectors_eq sl _ g1 w1]
    simp only
    rw [writeSectors_eq [s360] _ g2 w2]
    simp only
    have hdd := hdirs
    rw [← hnd] at hdd
    unfold rawEntry at hdd
    simp only [hfn] at hdd
    rw [hlen_sl, hfirst, hdd, writeSectors_eq (numberDirSectors 361 ws) _ g3 w3]
    simp only [hb']
  -- the directory that is read back
  have hdirsec : ∀ w ∈ numberDirSectors 361 ws, sec h b' w.num = w.data := by
    intro w hw
    rw [← hb']
    exact sec_writeAll_mem _ _ g3 w3 (by rw [hn1]; exact List.nodup_range') w hw
  have hmapsec : (List.range' 361 9).map (sec h b') = ws.map (·.data) := by
    rw [← hn2, ← hq.1, ← hn1, List.map_map]
    apply List.map_congr_left
    intro w hw
    exact hdirsec w hw
  have hflat : slice b' (h.dpos 361) (h.dpos 361 + 8 * h.sectorSize) = (ds.map ADirent.encode).flatten := by
    rw [slice_sectors g' 8 361 (by omega) (by omega), List.flatMap_def]
    have : (List.range' 361 8).map (sec h b') = (ws.take 8).map (·.data) := by
      rw [List.map_take, ← hmapsec, ← List.map_take]
      rfl
    rw [this, ← List.flatMap_def, flatMap_data_take q3, q2, List.map_append, List.flatten_append, List.append_assoc,
      List.take_append_of_le_length, List.take_of_length_le]
    · rw [flatten_length_const 16 _ (by intro x hx; obtain ⟨d, _, rfl⟩ := List.mem_map.mp hx; simp), List.length_map, hlen, hss]
      decide
    · rw [flatten_length_const 16 _ (by intro x hx; obtain ⟨d, _, rfl⟩ := List.mem_map.mp hx; simp), List.length_map, hlen, hss]
      decide
  have hraw : rawEntries h b' = ds.map ADirent.encode := by
    unfold rawEntries
    rw [hflat]
    have := chunks_flatten_append 16 (by omega) (ds.map ADirent.encode) []
      (by intro x hx; obtain ⟨d, _, rfl⟩ := List.mem_map.mp hx; simp)
    simpa using this
  have hscan : scanDir h 0 (rawEntries h b') = .ok ds := by
    rw [hraw]
    have := scanDir_append h (ds.map ADirent.encode) ds 0 [] (by simp)
      (by
        intro i x d hx hd
        rw [List.getElem?_map, hd] at hx
        injection hx with hx
        rw [← hx, Nat.zero_add]
        exact ⟨c.stable i d hd, Or.inl (hall d (List.mem_of_getElem? hd))⟩) (by simp)
    simpa using this
  have h360 : sec h b' 360 = newVtoc h b map' := by
    rw [← hb', sec_writeAll_other _ _ g3 w3 360 d360 (by
      rw [hn1, List.mem_range'_1]; omega)]
    have := sec_writeAll_mem _ _ g2 w2 (by simp) s360 (by simp)
    rw [e1, e2] at this
    exact this
  obtain ⟨_, nv2⟩ := newVtoc_map hl360 hss2 r.mlen
  have hopens : openHeader b' = .ok h := by
    rw [openHeader_congr hbl]
    · exact c.opens
    · rw [← hb', slice_writeAll_front _ _ g3 w3 _ (fun w hw => dpos_ge g hss2 (by have := hdn w hw; omega)),
        slice_writeAll_front _ _ g2 w2 _ (fun w hw => by simp at hw; subst hw; rw [e1]; exact dpos_ge g hss2 (by omega)),
        slice_writeAll_front _ _ g1 w1 _ (fun w hw => dpos_ge g hss2 (hslu w hw).1.1)]
      apply slice_splice_disjoint
      · omega
      · left; exact dpos_ge g hss2 (by omega)
  have hsc : Scans h b' ds := ⟨hopens, hss2, c.size, c.ed, by rw [h360, nv2]; exact c.vtocCode, hscan⟩
  refine ⟨b', order.headD 0, ?_, ?_, ?_⟩
  · unfold AImg.writeFile AImg.transaction
    rw [hbody]
    simp only
    rw [getMetadata_scan hsc rfl rfl rfl (Or.inl rfl), if_pos c.allSane]
  · rw [open_scan hsc, if_pos c.allSane]
  · rw [hnd]
    have e9 : sec h b' 369 = ((List.range' 361 9).map (sec h b')).getD 8 [] := rfl
    rw [e9, hmapsec]
    have e10 : (ws.drop 8).flatMap (·.data) = nd.encode ++ List.replicate 112 0 := by
      have hsplit : ws.flatMap (·.data) = (ws.take 8).flatMap (·.data) ++ (ws.drop 8).flatMap (·.data) := by
        rw [← List.flatMap_append, List.take_append_drop]
      have h8 : ((ws.take 8).flatMap (·.data)).length = 1024 := by
        rw [flatMap_data_take q3, q2, List.length_take, List.length_append,
          flatten_length_const 16 _ (by intro x hx; obtain ⟨d, _, rfl⟩ := List.mem_map.mp hx; simp)]
        simp only [List.length_map, List.length_append, List.length_replicate, List.length_singleton, hlen, hss]
        omega
      have hdl : ((ds.map ADirent.encode).flatten).length = 1024 := by
        rw [flatten_length_const 16 _ (by intro x hx; obtain ⟨d, _, rfl⟩ := List.mem_map.mp hx; simp), List.length_map, hlen]
      rw [q2, List.map_append, List.flatten_append, List.append_assoc] at hsplit
      have := (List.append_inj hsplit (by rw [h8, hdl])).2
      rw [← this, hq.2]
      simp
    have h9 : ws.drop 8 = [ws[8]'(by omega)] := by
      rw [List.drop_eq_getElem_cons (by omega), List.drop_eq_nil_of_le (by omega)]
    rw [h9] at e10
    rw [List.flatMap_cons, List.flatMap_nil, List.append_nil] at e10
    rw [← e10, List.getD_eq_getElem?_getD, List.getElem?_map, List.getElem?_eq_getElem (show 8 < ws.length by omega)]
    rfl

end Atr
