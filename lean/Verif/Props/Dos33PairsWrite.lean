import Verif.Props.Dos33PairsRead
import Verif.Props.Dos33WriteAny
/-!
# C127: a file that is written to a disk whose VTOC states another number of pairs
-/
namespace Atr

theorem readPositions_low : ∀ (l : List Nat), (∀ s ∈ l, s < 560) → readPositions 560 l = .ok (l.map (256 * ·)) := by
  intro l
  induction l with
  | nil => intro _; rfl
  | cons s l ih =>
    intro h
    unfold readPositions
    rw [if_neg (by have := h s (by simp); omega), ih fun x hx => h x (by simp [hx])]
    rfl

theorem slice_flatMap_secs {b : Bytes} (hb : b.length = 143360) : ∀ (l : List Nat) (k s : Nat), (∀ s ∈ l, s < 560) → l[k]? = some s →
    slice (l.flatMap (sec33 b)) (256 * k) (256 * k + 256) = sec33 b s := by
  intro l
  induction l with
  | nil => intro k s _ h; cases h
  | cons x l ih =>
    intro k s hl h
    have hx := length_sec33 hb (hl x (by simp))
    unfold slice
    rw [List.flatMap_cons]
    cases k with
    | zero =>
      rw [List.getElem?_cons_zero] at h
      injection h with h
      subst h
      rw [Nat.mul_zero, Nat.zero_add, List.drop_zero, List.take_append_of_le_length (by omega), List.take_of_length_le (by omega)]
    | succ k =>
      rw [List.getElem?_cons_succ] at h
      have := ih k s (fun y hy => hl y (by simp [hy])) h
      unfold slice at this
      rw [List.take_append, List.take_of_length_le (by omega), List.drop_append, List.drop_of_length_le (by omega), List.nil_append, hx,
        show 256 * (k + 1) + 256 - 256 = 256 * k + 256 by omega, show 256 * (k + 1) - 256 = 256 * k by omega]
      exact this

theorem length_flatMap_secs {b : Bytes} (hb : b.length = 143360) : ∀ (l : List Nat), (∀ s ∈ l, s < 560) → (l.flatMap (sec33 b)).length = 256 * l.length := by
  intro l
  induction l with
  | nil => intro _; rfl
  | cons x l ih =>
    intro hl
    rw [List.flatMap_cons, List.length_append, length_sec33 hb (hl x (by simp)), ih fun y hy => hl y (by simp [hy]), List.length_cons]
    omega

/-- a file is read as the sectors of its map -/
theorem getFile_map33 {b : Bytes} (hb : b.length = 143360) {d : DDirent} (hs : d.isSane = true) {ts map : List Nat} (h : d.tsMap 560 b = .ok (ts, map))
    (hne : map ≠ []) (hl : ∀ s ∈ map, s < 560) : d.getFile 560 b = .ok (map.flatMap (sec33 b)) := by
  cases map with
  | nil => exact absurd rfl hne
  | cons s map =>
    have e : ((s :: map).map (256 * ·)).flatMap (fun p => slice b p (p + 256)) = (s :: map).flatMap (sec33 b) := by
      rw [List.flatMap_map]
      rfl
    have h0 := hl s (by simp)
    have hx := length_sec33 hb h0
    unfold DDirent.getFile
    rw [if_neg (by simp [hs]), h]
    simp only
    rw [readPositions_low _ hl]
    simp only [e]
    rw [if_neg, if_neg (by omega)]
    intro hn
    have := congrArg List.length hn
    rw [List.flatMap_cons, List.length_append, hx] at this
    simp at this

/-- `write_file` on a disk that opens and whose VTOC states `p` pairs for a list -/
theorem writeFile_pairs_any {p : Nat} {b : Bytes} {cs : List Nat} {m : DImg} {name data : Bytes} {ftype : Nat} (hm : DImg.open b = .ok m)
    (v : Volume33 b cs) (hv : 272 ∉ cs) (hn : sectors33 b = 560) (hp0 : 0 < p) (hp : p ≤ 122) (hpairs : secByte33 b 272 0x27 = p)
    (hcs : ∀ x ∈ cs, ¬ IsFree33 b x) (h272 : ¬ IsFree33 b 272) (hboot : ¬ IsFree33 b 0) (hne : data ≠ []) (ha : Ascii33 name) (ht : ftype < 128)
    (hroom : (catSeen33 b cs).length < 7 * (cs.length - 1))
    (hk : dataSecs33 data.length + listSecsBy33 p data.length ≤ (freePool33 b).length)
    (hlow : ∀ s ∈ (freePool33 b).take (dataSecs33 data.length + listSecsBy33 p data.length), s < 560)
    (htrack : 16 ≤ ((freePool33 b).drop (dataSecs33 data.length)).headD 0) :
    ∃ m' order tsOrder, order = (freePool33 b).take (dataSecs33 data.length) ∧
      tsOrder = ((freePool33 b).drop (dataSecs33 data.length)).take (listSecsBy33 p data.length) ∧
      DImg.writeFile name ftype data m = (.ok (), m') ∧ DImg.open m'.bytes = .ok m' ∧ Volume33 m'.bytes cs ∧ sectors33 m'.bytes = 560 ∧
      Stored33 p b m'.bytes cs name ftype data order tsOrder ∧ order.length = dataSecs33 data.length ∧ tsOrder.length = listSecsBy33 p data.length ∧
      (∀ s ∈ order ++ tsOrder, IsFree33 b s) ∧ (order ++ tsOrder).Nodup ∧ sec33 m'.bytes 0 = sec33 b 0 := by
  have hb := v.size
  obtain ⟨_, _, h1, h3, h2, _⟩ := C77_opens b m hm
  obtain ⟨_, hallS⟩ := getDirectory_open hm v hn
  obtain ⟨b', hbody, ad⟩ := writeBody_pairs_any (ftype := ftype) hm v hv hn hp0 hp hpairs hcs h272 hne ha ht hroom hk hlow
  have hpos : 0 < data.length := List.length_pos_iff.mpr hne
  have hk0 : 0 < dataSecs33 data.length := by unfold dataSecs33; omega
  have ht1 : 0 < listSecsBy33 p data.length := by unfold listSecsBy33; exact Nat.div_pos (by omega) hp0
  have hol : ((freePool33 b).take (dataSecs33 data.length)).length = dataSecs33 data.length := by rw [List.length_take]; omega
  have htl : (((freePool33 b).drop (dataSecs33 data.length)).take (listSecsBy33 p data.length)).length = listSecsBy33 p data.length := by
    rw [List.length_take, List.length_drop]; omega
  have hhead : (((freePool33 b).drop (dataSecs33 data.length)).take (listSecsBy33 p data.length)).headD 0 = ((freePool33 b).drop (dataSecs33 data.length)).headD 0 := by
    cases (freePool33 b).drop (dataSecs33 data.length) with
    | nil => simp
    | cons x l =>
      obtain ⟨t, ht⟩ : ∃ t, listSecsBy33 p data.length = t + 1 := ⟨listSecsBy33 p data.length - 1, by omega⟩
      rw [ht]; rfl
  rw [← hhead] at htrack
  have hfreeAll : ∀ s ∈ (freePool33 b).take (dataSecs33 data.length) ++ ((freePool33 b).drop (dataSecs33 data.length)).take (listSecsBy33 p data.length), IsFree33 b s := by
    intro s hs
    rw [← List.take_add] at hs
    exact mem_freePool33.mp (List.mem_of_mem_take hs)
  have hnd : ((freePool33 b).take (dataSecs33 data.length) ++ ((freePool33 b).drop (dataSecs33 data.length)).take (listSecsBy33 p data.length)).Nodup := by
    rw [← List.take_add]
    exact (freePool33_nodup b).sublist (List.take_sublist _ _)
  have hlen560 := low_length hk hlow
  clear hk hlow hhead
  generalize hO1 : (freePool33 b).take (dataSecs33 data.length) = order at *
  generalize hO2 : ((freePool33 b).drop (dataSecs33 data.length)).take (listSecsBy33 p data.length) = tsOrder at *
  have hts0 : tsOrder.headD 0 ∈ tsOrder := by
    cases tsOrder with
    | nil => simp at htl; omega
    | cons a l => simp
  have h0s : sec33 b' 0 = sec33 b 0 :=
    ad.others 0 (by omega) (fun h => absurd rfl ((chain33_of_cat (hn ▸ v.chain)).lt 0 h).1) (fun h => hboot (hfreeAll 0 h))
  have hold : ∀ f, some f ∈ (catSeen33 b cs).map (kept33 b) → f.track ≠ 0 ∧ f.first < 560 ∧ f.sectors ≤ 560 := by
    intro f hf
    obtain ⟨q, hq, hqf⟩ := List.mem_map.mp hf
    unfold kept33 at hqf
    by_cases hq255 : byteOf b q = 255
    · rw [if_pos hq255] at hqf; cases hqf
    · rw [if_neg hq255] at hqf
      injection hqf with hqf
      have hg := v.good q hq
      rw [hn] at hg
      rcases hg with hg | hg
      · exact absurd hg hq255
      · rw [← hqf]
        exact hg
  obtain ⟨i, i1, i2, i3, hpk⟩ := ad.entry
  obtain ⟨hvol, hn'⟩ := hpk.volume v hn (by
    intro f hf _
    rcases List.mem_append.mp hf with hf | hf
    · exact hold f (List.mem_of_mem_take hf)
    · rcases List.mem_cons.mp hf with hf | hf
      · injection hf with hf
        rw [hf]
        refine ⟨?_, (ad.listIn _ hts0).2, hlen560⟩
        show _ / 16 ≠ 0
        omega
      · exact hold f (List.mem_of_mem_drop hf)) h0s ad.kept
  obtain ⟨mO, hO⟩ := C77_volume hvol
  have hOb := (open33_ok hO).2.1
  have hw : DImg.writeFile name ftype data m = (.ok (), mO) := by
    unfold DImg.writeFile DImg.transaction
    simp only
    rw [hbody]
    simp only
    exact getMetadata33_of_open (m2 := { m with bytes := b' }) hO rfl (h2.trans hn) hallS
  refine ⟨mO, order, tsOrder, rfl, rfl, hw, by rw [hOb]; exact hO, by rw [hOb]; exact hvol, by rw [hOb]; exact hn', by rw [hOb]; exact ad, hol, htl, hfreeAll, hnd, by rw [hOb]; exact h0s⟩

/-- **C127, writing.** Let the VTOC of a disk that opens state `p` pairs for a list, 1 to 122.  Under the conditions of `C94_write_succeeds` and with the boot sector in use,
`write_file` succeeds and the disk opens again with the new entry in its catalog.  The sectors `order` hold the bytes of the file.  Whoever reads the file by that entry gets
them if `p` is 122 or if the file has at most `p` sectors; otherwise the boot sector stands in the place of sector number `p` of the file. -/
theorem C127_write_partial {p : Nat} {b : Bytes} {cs : List Nat} {m : DImg} {name data : Bytes} {ftype : Nat} (hm : DImg.open b = .ok m)
    (v : Volume33 b cs) (hv : 272 ∉ cs) (hn : sectors33 b = 560) (hp0 : 0 < p) (hp : p ≤ 122) (hpairs : secByte33 b 272 0x27 = p)
    (hcs : ∀ x ∈ cs, ¬ IsFree33 b x) (h272 : ¬ IsFree33 b 272) (hboot : ¬ IsFree33 b 0) (hne : data ≠ []) (ha : Ascii33 name) (ht : ftype < 128)
    (hroom : (catSeen33 b cs).length < 7 * (cs.length - 1))
    (hk : dataSecs33 data.length + listSecsBy33 p data.length ≤ (freePool33 b).length)
    (hlow : ∀ s ∈ (freePool33 b).take (dataSecs33 data.length + listSecsBy33 p data.length), s < 560)
    (htrack : 16 ≤ ((freePool33 b).drop (dataSecs33 data.length)).headD 0) :
    ∃ m' f i, DImg.writeFile name ftype data m = (.ok (), m') ∧ DImg.open m'.bytes = .ok m' ∧ Volume33 m'.bytes cs ∧ sectors33 m'.bytes = 560 ∧
      f.name = norm33 name ∧ f.ftype = ftype ∧ f.locked = false ∧
      Packed33 b m'.bytes cs (((catSeen33 b cs).map (kept33 b)).take i ++ some f :: ((catSeen33 b cs).map (kept33 b)).drop (i + 1)) ∧
      ∀ d : DDirent, d.info = f → d.isSane = true → ∃ x, d.getFile 560 m'.bytes = .ok x ∧ x.length = 256 * dataSecs33 data.length ∧
        (p = 122 ∨ dataSecs33 data.length ≤ p → x = padded33 data) ∧
        (p < 122 → p < dataSecs33 data.length → slice x (256 * p) (256 * p + 256) = sec33 b 0) := by
  obtain ⟨m', order, tsOrder, _, _, k1, k2, k3, k4, ad, hol, htl, hfreeAll, _, h0s⟩ :=
    writeFile_pairs_any (ftype := ftype) hm v hv hn hp0 hp hpairs hcs h272 hboot hne ha ht hroom hk hlow htrack
  have hk0 : 0 < dataSecs33 data.length := by have := List.length_pos_iff.mpr hne; unfold dataSecs33; omega
  obtain ⟨i, _, _, _, hpk⟩ := ad.entry
  refine ⟨m', _, i, k1, k2, k3, k4, rfl, rfl, rfl, hpk, ?_⟩
  intro d hd hsane
  have hd1 : secOfTS d.track d.sector = tsOrder.headD 0 := congrArg FileInfo33.first hd
  have hd2 : d.numSectors = dataSecs33 data.length + listSecsBy33 p data.length := congrArg FileInfo33.sectors hd
  have hone : order ≠ [] := by intro h; rw [h] at hol; simp at hol; omega
  have hord : ∀ n ∈ order, n ≠ 0 ∧ n < 560 := fun n hn => ⟨fun h => hboot (h ▸ hfreeAll n (by simp [hn])), ad.dataIn n hn⟩
  obtain ⟨map, r1, r2, r3, r4, r5⟩ := tsMap_lists (b := m'.bytes) (d := d) ad.size hp0 hp hord hone ad.count ad.listIn ad.lists hd1 (by rw [hd2, hol, htl])
  have hlow : ∀ s ∈ map, s < 560 := by
    intro s hs
    rcases r5 s hs with rfl | h
    · omega
    · exact ad.dataIn s h
  have hmne : map ≠ [] := by intro h; rw [h] at r2; simp at r2; omega
  refine ⟨_, getFile_map33 ad.size hsane r1 hmne hlow, ?_, ?_, ?_⟩
  · rw [length_flatMap_secs ad.size map hlow, r2, hol]
  · intro h
    rw [r3.mpr (by rw [hol]; exact h)]
    exact ad.contents
  · intro h4 h5
    rw [slice_flatMap_secs ad.size map p 0 hlow (r4 h4 (by rw [hol]; exact h5)), h0s]

/-! ### a disk without files whose VTOC states one pair -/

/-- the VTOC of the template with 1 for the number of pairs -/
def vtocPairs1 : Bytes := vtocBlank33.set 0x27 1

/-- boot sector, that VTOC, and an empty catalog in the sectors 287 and 286 -/
def pairs1Sec (s : Nat) : Bytes :=
  if s = 0 then List.replicate 256 0x60
  else if s = 272 then vtocPairs1 else if s = 287 then [0, 17, 14] ++ List.replicate 253 0
  else List.replicate 256 0

theorem pairs1Sec_length (s : Nat) : (pairs1Sec s).length = 256 := by
  unfold pairs1Sec
  split
  · exact List.length_replicate
  split
  · decide +kernel
  split
  · decide +kernel
  · exact List.length_replicate

def pairs1Disk : Bytes := imgOf33 pairs1Sec

theorem pairs1Disk_length : pairs1Disk.length = 143360 := imgOf33_length pairs1Sec_length

theorem pairs1Disk_sec {s : Nat} (h : s < 560) : sec33 pairs1Disk s = pairs1Sec s := sec33_flatMap pairs1Sec_length h

attribute [local irreducible] pairs1Disk

theorem pairs1Disk_byte {s i : Nat} (hs : s < 560) (hi : i < 256) : secByte33 pairs1Disk s i = ((pairs1Sec s).getD i 0).toNat := by
  unfold secByte33
  rw [← getD_sec33 hi, pairs1Disk_sec hs]

theorem pairs1Disk_pair {s i : Nat} (hs : s < 560) (hi : i < 255) :
    pairAt33 pairs1Disk s i = 16 * ((pairs1Sec s).getD i 0).toNat + ((pairs1Sec s).getD (i + 1) 0).toNat := by
  unfold pairAt33
  rw [pairs1Disk_byte hs (by omega), pairs1Disk_byte hs (by omega)]

theorem pairs1Disk_seen2 : [286].flatMap (seenEntries33 pairs1Disk) = [] := by
  rw [List.flatMap_cons, List.flatMap_nil, List.append_nil, seenEntries33_eq, pairs1Disk_sec (by omega)]
  decide +kernel

theorem pairs1Disk_seen : catSeen33 pairs1Disk [287, 286] = [] := by
  unfold catSeen33
  rw [List.flatMap_cons, pairs1Disk_seen2, List.append_nil, seenEntries33_eq, pairs1Disk_sec (by omega)]
  decide +kernel

theorem pairs1Disk_sectors : sectors33 pairs1Disk = 560 := by
  unfold sectors33; rw [pairs1Disk_byte (by omega) (by omega), pairs1Disk_byte (by omega) (by omega)]; decide +kernel

theorem pairs1Disk_volume : Volume33 pairs1Disk [287, 286] := by
  have h2 : pairAt33 pairs1Disk 272 1 = 287 := by rw [pairs1Disk_pair (by omega) (by omega)]; decide +kernel
  have h3 := pairs1Disk_sectors
  refine ⟨pairs1Disk_length, ⟨?_, fun _ => ?_⟩, by rw [h2, h3]; omega, ?_, ?_⟩
  · have h : pairs1Disk.take 4 = (pairs1Sec 0).take 4 := by
      rw [← pairs1Disk_sec (by omega)]
      simp [sec33, slice, List.take_take]
    rw [h]
    decide +kernel
  · rw [pairs1Disk_byte (by omega) (by omega), pairs1Disk_byte (by omega) (by omega)]; decide +kernel
  · rw [h2, h3]
    refine .next (by omega) (by omega) (by omega) ?_
    rw [pairs1Disk_pair (by omega) (by omega), show 16 * ((pairs1Sec 287).getD 1 0).toNat + ((pairs1Sec 287).getD (1 + 1) 0).toNat = 286 by decide +kernel]
    refine .next (by omega) (by omega) (by omega) ?_
    rw [pairs1Disk_pair (by omega) (by omega), show 16 * ((pairs1Sec 286).getD 1 0).toNat + ((pairs1Sec 286).getD (1 + 1) 0).toNat = 0 by decide +kernel]
    exact .done
  · intro p hp
    have : p ∈ catSeen33 pairs1Disk [287, 286] := hp
    rw [pairs1Disk_seen] at this
    cases this

theorem vtocPairs1_free : ∀ s, s < 800 → (256 * (vtocPairs1.getD (0x38 + 4 * (s / 16)) 0).toNat +
    (vtocPairs1.getD (0x39 + 4 * (s / 16)) 0).toNat).testBit (s % 16) = decide ((48 ≤ s ∧ s < 272) ∨ (288 ≤ s ∧ s < 560)) := by
  decide +kernel

theorem pairs1Disk_free (s : Nat) : IsFree33 pairs1Disk s ↔ (48 ≤ s ∧ s < 272) ∨ (288 ≤ s ∧ s < 560) := by
  unfold IsFree33
  rw [pairs1Disk_sec (by omega), show pairs1Sec 272 = vtocPairs1 from rfl]
  constructor
  · rintro ⟨h1, h2⟩
    rw [vtocPairs1_free s h1] at h2
    simpa using h2
  · intro h
    have h1 : s < 800 := by omega
    refine ⟨h1, ?_⟩
    rw [vtocPairs1_free s h1]
    simpa using h

theorem pairs1Disk_pool : ∃ l, freePool33 pairs1Disk = 48 :: 49 :: 50 :: 51 :: l := by
  have h : freePool33 pairs1Disk = (List.range 800).filter fun s => decide ((48 ≤ s ∧ s < 272) ∨ (288 ≤ s ∧ s < 560)) := by
    unfold freePool33
    exact List.filter_congr fun s _ => by simp only [pairs1Disk_free s]
  rw [h]
  exact ⟨((List.range 800).filter fun s => decide ((48 ≤ s ∧ s < 272) ∨ (288 ≤ s ∧ s < 560))).drop 4, by decide +kernel⟩

/-- **C127, refuted.** There is a disk that opens and whose VTOC states one pair, and on which every file of 257 to 512 bytes (of any type but text) is written without an
error, is listed alone, and is read back with the boot sector in the place of its second sector. -/
theorem C127_refuted : ∃ (b : Bytes) (m : DImg), DImg.open b = .ok m ∧ secByte33 b 272 0x27 = 1 ∧ b.take 256 = List.replicate 256 0x60 ∧
    ∀ name data ftype, 256 < data.length → data.length ≤ 512 → Ascii33 name → 0 < ftype → ftype < 128 →
      ∃ m' x, DImg.writeFile name ftype data m = (.ok (), m') ∧ DImg.open m'.bytes = .ok m' ∧ m'.names = [norm33 name] ∧
        m'.findFile (norm33 name) = .ok x ∧ x.length = 512 ∧ slice x 256 512 = List.replicate 256 0x60 := by
  have v := pairs1Disk_volume
  have hn := pairs1Disk_sectors
  obtain ⟨m, hm⟩ := C77_volume v
  have hp1 : secByte33 pairs1Disk 272 0x27 = 1 := by rw [pairs1Disk_byte (by omega) (by omega)]; decide +kernel
  refine ⟨pairs1Disk, m, hm, hp1, ?_, ?_⟩
  · have : pairs1Disk.take 256 = sec33 pairs1Disk 0 := by simp [sec33, slice]
    rw [this, pairs1Disk_sec (by omega)]
    rfl
  intro name data ftype hd1 hd2 ha ht0 ht
  have hds : dataSecs33 data.length = 2 := by unfold dataSecs33; omega
  have hls : listSecsBy33 1 data.length = 2 := by unfold listSecsBy33; rw [hds]
  obtain ⟨l, hl⟩ := pairs1Disk_pool
  obtain ⟨m', f, i, k1, k2, hv', hn', k3, k4, k5, k6, k7⟩ := C127_write_partial (ftype := ftype) (name := name) (data := data) hm v (by decide) hn (by decide : 0 < 1) (by decide) hp1
    (fun x hx => by
      rw [pairs1Disk_free]
      simp only [List.mem_cons, List.not_mem_nil, or_false] at hx
      omega)
    (by rw [pairs1Disk_free]; omega) (by rw [pairs1Disk_free]; omega) (by rintro rfl; simp at hd1) ha ht (by rw [pairs1Disk_seen]; decide)
    (by rw [hds, hls, hl]; simp) (by rw [hds, hls, hl]; simp) (by rw [hds, hl]; simp)
  have hslots : (((catSeen33 pairs1Disk [287, 286]).map (kept33 pairs1Disk)).take i ++ some f :: ((catSeen33 pairs1Disk [287, 286]).map (kept33 pairs1Disk)).drop (i + 1)) = [some f] := by
    rw [pairs1Disk_seen]; simp
  rw [hslots] at k6
  have hseen : catSeen33 m'.bytes [287, 286] = [73483] := by
    rw [C94_listing k6 (by decide) (by
      intro g hg
      rw [List.mem_singleton] at hg
      injection hg with hg
      rw [hg, k4]
      omega)]
    rw [show [some f].length = 1 from rfl]
    show [73483] ++ [286].flatMap (seenEntries33 pairs1Disk) = _
    rw [pairs1Disk_seen2]
    rfl
  have hslot : byteOf m'.bytes 73483 ≠ 255 ∧ fileInfo33 m'.bytes 73483 = f := k6.slot 0 (some f) rfl
  obtain ⟨_, _, _, ds0, _, hfi, hsane⟩ := open33_ok k2
  obtain ⟨cs, v2, _, _, h2, _, hfiles⟩ := C77_opens _ m' k2
  have hcs : cs = [287, 286] := hv'.chain.unique v2.chain
  subst hcs
  have hent : fileEntries33 m'.bytes [287, 286] = [73483] := by
    unfold fileEntries33
    show (catSeen33 m'.bytes [287, 286]).filter _ = _
    rw [hseen, List.filter_cons, if_pos (by simp [hslot.1])]
    rfl
  rw [hent] at hfiles
  obtain ⟨d, hd, hdi⟩ : ∃ d, m'.files = [d] ∧ d.info = fileInfo33 m'.bytes 73483 := by
    cases hf : m'.files with
    | nil => rw [hf] at hfiles; cases hfiles
    | cons d l =>
      rw [hf] at hfiles
      cases l with
      | nil => exact ⟨d, rfl, (List.cons.inj hfiles).1⟩
      | cons _ _ => have := congrArg List.length hfiles; simp at this
  have hdsane : d.isSane = true := by
    refine hsane d ?_
    have : d ∈ m'.files := by rw [hd]; simp
    rw [hfi] at this
    exact (List.mem_filter.mp this).1
  have hname : d.filename = norm33 name := by rw [show d.filename = d.info.name from rfl, hdi, hslot.2, k3]
  obtain ⟨x, g1, g2, _, g4⟩ := k7 d (hdi.trans hslot.2) hdsane
  refine ⟨m', x, k1, k2, ?_, ?_, by rw [g2, hds], ?_⟩
  · unfold DImg.names
    rw [hd, List.map_cons, hname]
    rfl
  · rw [← hname, findFile_one hd, h2, hn']
    exact g1
  · have := g4 (by decide) (by rw [hds]; decide)
    rw [pairs1Disk_sec (by omega)] at this
    exact this

end Atr
