import Verif.Props.Dos33Compact
/-!
# Adding a file to any DOS 3.3 disk that opens: when it succeeds and what is then on the disk
-/
namespace Atr

theorem listPairs33_eq {b : Bytes} (hb : b.length = 143360) {t : Nat} (ht : t < 560) : tsPairsOf (sec33 b t) = listPairs33 b t := by
  rw [← tsPairs_list b t]
  unfold listSec33
  rw [ofData_full (length_sec33 hb ht)]

theorem listChain_of_chain {b : Bytes} {s ts} (h : Chain33 b s ts) : ListChain33 560 b s ts := by
  induction h with
  | nil => exact .done
  | cons h0 h1 _ ih =>
    refine .next h0 h1 ?_
    rw [← linkOf_sec33]
    exact ih

theorem freePool33_sorted (b : Bytes) : (freePool33 b).Pairwise (· < ·) := List.pairwise_lt_range.sublist List.filter_sublist

theorem low_length {b : Bytes} {n : Nat} (h : n ≤ (freePool33 b).length) (hlow : ∀ s ∈ (freePool33 b).take n, s < 560) : n ≤ 560 := by
  have h1 : List.Sublist ((freePool33 b).take n) (List.range 800) := (List.take_sublist _ _).trans List.filter_sublist
  have h2 := (h1.filter (fun s => decide (s < 560))).length_le
  rw [List.filter_eq_self.mpr (fun s hs => decide_eq_true (hlow s hs)), List.length_take, Nat.min_eq_left h] at h2
  have h3 : ((List.range 800).filter fun s => decide (s < 560)).length = 560 := by decide +kernel
  omega

/-- what `write_file` leaves on a disk: `order` are the sectors of the data, `tsOrder` those of the list -/
structure Added33 (b b' : Bytes) (cs : List Nat) (name : Bytes) (ftype : Nat) (data : Bytes) (order tsOrder : List Nat) : Prop where
  /-- the new entry takes the place of the first one marked as deleted, or follows all others -/
  entry : ∃ i, i ≤ (catSeen33 b cs).length ∧ (∀ p, (catSeen33 b cs)[i]? = some p → byteOf b p = 255) ∧
    (∀ (j p : Nat), j < i → (catSeen33 b cs)[j]? = some p → byteOf b p ≠ 255) ∧
    Packed33 b b' cs (((catSeen33 b cs).map (kept33 b)).take i ++
      some ⟨norm33 name, ftype, false, tsOrder.headD 0, dataSecs33 data.length + listSecs33 data.length, tsOrder.headD 0 / 16⟩ ::
        ((catSeen33 b cs).map (kept33 b)).drop (i + 1))
  size : b'.length = 143360
  contents : order.flatMap (sec33 b') = padded33 data
  list : ListChain33 560 b' (tsOrder.headD 0) tsOrder
  pairs : dataSectors33 b' (dataSecs33 data.length + listSecs33 data.length) tsOrder = order
  others : ∀ s, s ≠ 272 → s ∉ cs → s ∉ order ++ tsOrder → sec33 b' s = sec33 b s
  free : ∀ s, IsFree33 b' s ↔ IsFree33 b s ∧ s ∉ order ++ tsOrder
  kept : VtocKept b b'

/-- lists needed for a file of `n` bytes if each names `p` sectors -/
def listSecsBy33 (p n : Nat) : Nat := (dataSecs33 n + (p - 1)) / p

/-- what `write_file` leaves on a disk whose VTOC states `p` pairs for a list: `order` are the sectors of the data, `tsOrder` those of the lists -/
structure Stored33 (p : Nat) (b b' : Bytes) (cs : List Nat) (name : Bytes) (ftype : Nat) (data : Bytes) (order tsOrder : List Nat) : Prop where
  /-- the new entry takes the place of the first one marked as deleted, or follows all others -/
  entry : ∃ i, i ≤ (catSeen33 b cs).length ∧ (∀ p, (catSeen33 b cs)[i]? = some p → byteOf b p = 255) ∧
    (∀ (j p : Nat), j < i → (catSeen33 b cs)[j]? = some p → byteOf b p ≠ 255) ∧
    Packed33 b b' cs (((catSeen33 b cs).map (kept33 b)).take i ++
      some ⟨norm33 name, ftype, false, tsOrder.headD 0, dataSecs33 data.length + listSecsBy33 p data.length, tsOrder.headD 0 / 16⟩ ::
        ((catSeen33 b cs).map (kept33 b)).drop (i + 1))
  size : b'.length = 143360
  count : (chunks p order).length = tsOrder.length
  listIn : ∀ x ∈ tsOrder, x ≠ 0 ∧ x < 560
  dataIn : ∀ x ∈ order, x < 560
  contents : order.flatMap (sec33 b') = padded33 data
  list : ListChain33 560 b' (tsOrder.headD 0) tsOrder
  /-- list `j` names the sectors of the `j`th group of `p` and the sector of the next list -/
  lists : ∀ (j n : Nat) (g : List Nat), (chunks p order)[j]? = some g → tsOrder[j]? = some n →
    sec33 b' n = splice (tsData g) 1 (tsBytes (tsOrder.getD (j + 1) 0))
  others : ∀ s, s ≠ 272 → s ∉ cs → s ∉ order ++ tsOrder → sec33 b' s = sec33 b s
  free : ∀ s, IsFree33 b' s ↔ IsFree33 b s ∧ s ∉ order ++ tsOrder
  kept : VtocKept b b'

theorem writeBody_pairs_any {p : Nat} {b : Bytes} {cs : List Nat} {m : DImg} {name data : Bytes} {ftype : Nat} (hm : DImg.open b = .ok m)
    (v : Volume33 b cs) (hv : 272 ∉ cs) (hn : sectors33 b = 560) (hp0 : 0 < p) (hp : p ≤ 122) (hpairs : secByte33 b 272 0x27 = p)
    (hcs : ∀ x ∈ cs, ¬ IsFree33 b x) (h272 : ¬ IsFree33 b 272) (hne : data ≠ []) (ha : Ascii33 name) (ht : ftype < 128)
    (hroom : (catSeen33 b cs).length < 7 * (cs.length - 1))
    (hk : dataSecs33 data.length + listSecsBy33 p data.length ≤ (freePool33 b).length)
    (hlow : ∀ s ∈ (freePool33 b).take (dataSecs33 data.length + listSecsBy33 p data.length), s < 560) :
    ∃ b', DImg.writeBody name ftype data m = (.ok (), { m with bytes := b' }) ∧
      Stored33 p b b' cs name ftype data ((freePool33 b).take (dataSecs33 data.length))
        (((freePool33 b).drop (dataSecs33 data.length)).take (listSecsBy33 p data.length)) := by
  have hb := v.size
  obtain ⟨_, _, h1, h3, h2, h4, _⟩ := C77_opens b m hm
  have hmax : m.maxSectors = 560 := h2.trans hn
  obtain ⟨hdir, hallS⟩ := getDirectory_open hm v hn
  have hcsne : cs ≠ [] := by rintro rfl; simp at hroom
  obtain ⟨order, tsOrder, map1, map2, r⟩ := reserved33_spec hb hk
  have hall : ∀ s ∈ order ++ tsOrder, s < 560 ∧ IsFree33 b s := by
    intro s hs
    rw [r.all] at hs
    exact ⟨hlow s hs, mem_freePool33.mp (List.mem_of_mem_take hs)⟩
  have und : (order ++ tsOrder).Nodup := by
    rw [r.all]
    exact (freePool33_nodup b).sublist (List.take_sublist _ _)
  have hpos : 0 < data.length := List.length_pos_iff.mpr hne
  have hk0 : 0 < dataSecs33 data.length := by unfold dataSecs33; omega
  have ht1 : 0 < listSecsBy33 p data.length := by unfold listSecsBy33; exact Nat.div_pos (by omega) hp0
  have hordl : ∀ x ∈ order, x < 560 := fun x hx => (hall x (by simp [hx])).1
  have htsl : ∀ x ∈ tsOrder, x < 560 := fun x hx => (hall x (by simp [hx])).1
  have htsn : ∀ x ∈ tsOrder, x ≠ 0 := by
    intro x hx h0
    have hp : (order ++ tsOrder).Pairwise (· < ·) := by rw [r.all]; exact (freePool33_sorted b).sublist (List.take_sublist _ _)
    obtain ⟨y, hy⟩ : ∃ y, y ∈ order := by
      cases ho : order with
      | nil => have := r.len1; rw [ho] at this; simp at this; omega
      | cons y _ => exact ⟨y, by simp⟩
    have := (List.pairwise_append.mp hp).2.2 y hy x hx
    omega
  rw [← r.order_eq, ← r.ts_eq]
  have hsl0 : (buildSectors33 data).length = dataSecs33 data.length := by
    unfold buildSectors33 dataSecs33
    rw [List.length_map, length_chunks 256 (by omega)]; omega
  obtain ⟨l1, l2⟩ := linkSectors_plain (buildSectors33 data) order 0 (by rw [hsl0, r.len1])
  generalize hsl : linkSectors WSector.setNextPlain 0 (buildSectors33 data) order = sl at l1 l2
  have hsll : sl.length = dataSecs33 data.length := by have := congrArg List.length l1; rw [List.length_map] at this; rw [this, r.len1]
  have hsldata : ∀ w ∈ sl, w.data.length = 256 := by
    intro w hw
    have : w.data ∈ sl.map (·.data) := List.mem_map_of_mem hw
    rw [l2] at this
    obtain ⟨s, hs, hsd⟩ := List.mem_map.mp this
    obtain ⟨p, hp, rfl⟩ := List.mem_map.mp hs
    have hpl := (mem_chunks_length 256 (by omega) data p hp).2
    rw [← hsd, (ofData_data 256 p hpl).1, List.length_append, List.length_replicate]
    omega
  obtain ⟨tl0, t1, t2⟩ := tsSectors_ok (chunks p order) (fun x hx => Nat.le_trans (mem_chunks_length p hp0 order x hx).2 hp)
  have htl0 : tl0.length = listSecsBy33 p data.length := by
    have := congrArg List.length t2
    rw [List.length_map, List.length_map, length_chunks p hp0, r.len1] at this
    unfold listSecsBy33
    rw [this]
    congr 1
    omega
  obtain ⟨k1, k2⟩ := linkSectors_33 tl0 tsOrder 0 (by rw [htl0, r.len2])
  generalize htl : linkSectors WSector.setNext33 0 tl0 tsOrder = tl at k1 k2
  have htll : tl.length = listSecsBy33 p data.length := by have := congrArg List.length k1; rw [List.length_map] at this; rw [this, r.len2]
  have hchl : (chunks p order).length = tsOrder.length := by
    have := congrArg List.length t2
    rw [List.length_map, List.length_map, htl0, ← r.len2] at this
    exact this.symm
  have htlw : ∀ (j : Nat) (w : WSector), tl[j]? = some w → ∃ g n, (chunks p order)[j]? = some g ∧ tsOrder[j]? = some n ∧ w.num = n ∧
      w.data = splice (tsData g) 1 (tsBytes (tsOrder.getD (j + 1) 0)) := by
    intro j w hj
    have hjl : j < tl0.length := by rw [htl0, ← htll]; exact (List.getElem?_eq_some_iff.mp hj).1
    have hd := k2 j tl0[j] w (List.getElem?_eq_getElem hjl) hj
    have hg : ((chunks p order).map tsData)[j]? = some tl0[j].data := by
      rw [← t2, List.getElem?_map, List.getElem?_eq_getElem hjl]; rfl
    rw [List.getElem?_map] at hg
    obtain ⟨g, hg1, hg2⟩ := Option.map_eq_some_iff.mp hg
    have hn : tsOrder[j]? = some w.num := by rw [← k1, List.getElem?_map, hj]; rfl
    exact ⟨g, w.num, hg1, hn, rfl, by rw [hd, hg2]⟩
  have hg122 : ∀ g ∈ chunks p order, g.length ≤ 122 := fun g hg => Nat.le_trans (mem_chunks_length p hp0 order g hg).2 hp
  have htldata : ∀ w ∈ tl, w.data.length = 256 := by
    intro w hw
    obtain ⟨j, hj⟩ := List.getElem?_of_mem hw
    obtain ⟨g, n, h1, _, _, h4⟩ := htlw j w hj
    have hl := length_tsData (hg122 g (List.mem_of_getElem? h1))
    rw [h4, length_splice _ _ _ (by rw [hl]; simp [tsBytes]), hl]
  have hnums : (sl ++ tl).map (·.num) = order ++ tsOrder := by rw [List.map_append, l1, k1]
  have hnum : ∀ w ∈ sl ++ tl, w.num ∈ order ++ tsOrder := by
    intro w hw
    have : w.num ∈ (sl ++ tl).map (·.num) := List.mem_map_of_mem hw
    rwa [hnums] at this
  have hwr : Writable33 (sl ++ tl) := by
    intro w hw
    refine ⟨(hall _ (hnum w hw)).1, ?_⟩
    rcases List.mem_append.mp hw with hw | hw
    · exact hsldata w hw
    · exact htldata w hw
  -- bitmap
  have hvl := length_sec33 hb (by omega : 272 < 560)
  obtain ⟨w1, b1, b2, b3⟩ := calcBitmap33 (m := m) (by rw [h1]; exact hb) map1
  rw [h1] at b1 b3
  generalize hbA : splice b (256 * 272) (vtocStore33 (sec33 b 272) map1) = bA at b1
  have hvA := length_vtocStore33 hvl map1
  have hlA : bA.length = 143360 := by rw [← hbA, length_splice _ _ _ (by rw [hvA, hb]; omega), hb]
  have hsA : sec33 bA 272 = vtocStore33 (sec33 b 272) map1 := by rw [← hbA]; exact sec33_splice_same hb (by omega) hvA
  have hoA : ∀ s, s ≠ 272 → sec33 bA s = sec33 b s := by
    intro s hs; rw [← hbA]; exact sec33_splice_other hb (by omega) hvA hs
  obtain ⟨w2, d1, d2, d3⟩ := calcBitmap33 (m := { m with bytes := bA }) hlA map2
  have hst : vtocStore33 (sec33 bA 272) map2 = vtocStore33 (sec33 b 272) map2 := by rw [hsA, vtocStore33_twice hvl]
  simp only [hst] at d1 d3
  generalize hbB : splice bA (256 * 272) (vtocStore33 (sec33 b 272) map2) = bB at d1
  have hvB := length_vtocStore33 hvl map2
  have hlB : bB.length = 143360 := by rw [← hbB, length_splice _ _ _ (by rw [hvB, hlA]; omega), hlA]
  have hoB : ∀ s, s ≠ 272 → sec33 bB s = sec33 b s := by
    intro s hs; rw [← hbB, sec33_splice_other hlA (by omega) hvB hs, hoA s hs]
  have hne272 : ∀ x ∈ cs, x ≠ 272 := fun x hx h => hv (h ▸ hx)
  have hchain : CatChain33 560 bB m.firstDir cs := by
    rw [h3, ← hn]
    exact v.chain.frame fun x hx => hoB x (hne272 x hx)
  -- catalog
  generalize hds : catList33 560 b cs 0 = ds at hdir
  have hdl : ds.length = (catSeen33 b cs).length := by
    rw [← hds]; unfold catList33 catSeen33; rw [List.length_map, List.length_zipIdx]
  obtain ⟨fs1, fs2, fs3⟩ := getFreeDirent33_spec ds
  have hts0 : tsOrder.headD 0 ∈ tsOrder := by
    cases htt : tsOrder with
    | nil => have := r.len2; rw [htt] at this; simp at this; omega
    | cons a l => simp
  have hraw := rawEntry33_ok (n := dataSecs33 data.length + listSecsBy33 p data.length) ha ht (htsl _ hts0)
  generalize hnd : rawEntry33 name ftype (dataSecs33 data.length + listSecsBy33 p data.length) (tsOrder.headD 0) = nd at hraw
  have henc : ∀ d ∈ setDirent33 ds (getFreeDirent33 ds) nd, d.Encodable := by
    intro d hd
    obtain ⟨i, hi⟩ := List.getElem?_of_mem hd
    rw [getElem?_setDirent33 fs1] at hi
    split at hi
    · injection hi with hi; rw [← hi]; exact hraw
    · have := List.mem_of_getElem? hi
      rw [← hds] at this
      obtain ⟨k, q, rfl⟩ := mem_catList33 this
      exact (entryAt33_encodable _ _ _ _).1
  have hnel : setDirent33 ds (getFreeDirent33 ds) nd ≠ [] := by
    intro h; have := congrArg List.length h; rw [length_setDirent33 fs1] at this; simp at this
  obtain ⟨cat, hcat⟩ : ∃ cat, DImg.calcCatSectors { m with bytes := bB } (setDirent33 ds (getFreeDirent33 ds) nd) = .ok cat := by
    obtain ⟨encs, e1, e2, e3, _⟩ := encodeAll33_ok _ henc
    have hnee : encs ≠ [] := by
      intro h; rw [h] at e2; exact hnel (List.length_eq_zero_iff.mp e2.symm)
    have hws := calcSectors33 hnee e3
    have hwl : (calcSectors freshCatSec encs).length = (chunks 7 encs).length := by have := congrArg List.length hws; simpa using this
    obtain ⟨cat, q1, _⟩ := numberCat_ok hlB (calcSectors freshCatSec encs) (chain33_of_cat hchain) (by
      rw [hwl, length_chunks 7 (by omega), e2, length_setDirent33 fs1, hdl]
      have : getFreeDirent33 ds ≤ (catSeen33 b cs).length := by rw [← hdl]; exact fs1
      omega)
    refine ⟨cat, ?_⟩
    unfold DImg.calcCatSectors
    rw [e1]
    simp only
    rw [hmax, q1]
  obtain ⟨z1, z2, z3⟩ := catWritten (m := { m with bytes := bB }) hlB hmax hchain hcsne hnel henc hcat
  -- bytes after the file and the VTOC have been written
  generalize hbC : writeAll33 bB (sl ++ tl) = bC
  have hlC : bC.length = 143360 := by rw [← hbC]; exact length_writeAll33 _ _ hlB hwr
  have hwv : Writable33 [w1, w2] := by
    intro w hw
    rcases List.mem_cons.mp hw with rfl | hw
    · exact ⟨by rw [b2]; omega, by rw [b3]; exact hvA⟩
    · rw [List.mem_singleton] at hw; subst hw
      exact ⟨by rw [d2]; omega, by rw [d3]; exact hvB⟩
  generalize hbD : writeAll33 bC [w1, w2] = bD
  have hlD : bD.length = 143360 := by rw [← hbD]; exact length_writeAll33 _ _ hlC hwv
  have hsD : sec33 bD 272 = vtocStore33 (sec33 b 272) map2 := by
    rw [← hbD]
    show sec33 (splice (splice bC (256 * w1.num) w1.data) (256 * w2.num) w2.data) 272 = _
    have hl1 : (splice bC (256 * w1.num) w1.data).length = 143360 := by
      rw [b2, b3, length_splice _ _ _ (by rw [hvA, hlC]; omega), hlC]
    rw [d2, d3, sec33_splice_same hl1 (by omega) hvB]
  have hoD : ∀ s, s ≠ 272 → sec33 bD s = sec33 bC s := by
    intro s hs
    rw [← hbD]
    refine sec33_writeAll_other _ _ hlC hwv s (fun w hw he => hs ?_)
    rcases List.mem_cons.mp hw with rfl | hw
    · rw [← he, b2]
    · rw [List.mem_singleton] at hw; subst hw; rw [← he, d2]
  have hoth := sec33_writeAll_other cat bD hlD z1
  have hnot : ∀ s, s ∉ cs → sec33 (writeAll33 bD cat) s = sec33 bD s :=
    fun s hs => hoth s (fun w' hw' he => hs (he ▸ z2 w' hw'))
  have hlE : (writeAll33 bD cat).length = 143360 := length_writeAll33 _ _ hlD z1
  have hbody : DImg.writeBody name ftype data m = (.ok (), { m with bytes := writeAll33 bD cat }) := by
    unfold DImg.writeBody
    rw [hdir]
    simp only
    have hgv : m.getVtocMap = .ok (vtocMap33 (sec33 b 272)) := by
      unfold DImg.getVtocMap getSec33
      rw [if_pos (by omega), h1]
    rw [hgv]
    simp only
    rw [hsl0, r.res1]
    simp only
    rw [b1]
    simp only [hsl]
    have hbt : buildTsList m.tsPairs (sl.map (·.num)) = .ok tl0 := by
      rw [h4, hpairs]
      unfold buildTsList
      rw [if_neg (by omega), l1, t1]
    simp only [hbt, htl0, r.res2, d1, htl]
    cases htlc : tl with
    | nil => rw [htlc] at htll; simp at htll; omega
    | cons t0 ts =>
      simp only
      have ht0n : t0.num = tsOrder.headD 0 := by rw [← k1, htlc]; rfl
      have hne : ({ DDirent.setValues name ftype with
          track := UInt8.ofNat (t0.num / 16), sector := UInt8.ofNat (t0.num % 16),
          numSectors := (sl ++ t0 :: ts).length } : DDirent) = nd := by
        rw [← hnd, ← htlc, List.length_append, hsll, htll, ht0n]
        rfl
      rw [hne, hcat]
      simp only
      rw [← htlc, writeSectors33_eq (sl ++ tl) { m with bytes := bB } hlB hmax hwr]
      simp only [hbC]
      rw [writeSectors33_eq [w1, w2] { m with bytes := bC } hlC hmax hwv]
      simp only [hbD]
      rw [writeSectors33_eq cat { m with bytes := bD } hlD hmax z1]
  obtain ⟨hpk, _⟩ := z3 bD hlD (fun x hx => by
    rw [hoD x (hne272 x hx), ← hbC, sec33_writeAll_other _ _ hlB hwr x]
    intro w hw he
    exact hcs x hx (he ▸ (hall _ (hnum w hw)).2))
  generalize writeAll33 bD cat = b' at *
  have hdel : nd.deleted = false := by rw [← hnd]; rfl
  have hinfo : (nd.reread 0).info = ⟨norm33 name, ftype, false, tsOrder.headD 0, dataSecs33 data.length + listSecsBy33 p data.length, tsOrder.headD 0 / 16⟩ := by
    have h1 := htsl _ hts0
    have e1 : rstripWs (nd.filename.take 29) = norm33 name := by rw [← hnd]; exact rstripWs_pad33 name
    have e2 : (if nd.deleted = true then 127 else nd.ftype) = ftype := by rw [hdel, ← hnd]; rfl
    have e3 : secOfTS nd.track nd.sector = tsOrder.headD 0 := by rw [← hnd]; exact secOfTS_ofNat (by omega)
    have e4 : nd.track.toNat = tsOrder.headD 0 / 16 := by rw [← hnd]; exact toNat_ofNat8 (by omega)
    have e5 : nd.numSectors % 65536 = dataSecs33 data.length + listSecsBy33 p data.length := by
      have e : nd.numSectors = dataSecs33 data.length + listSecsBy33 p data.length := by rw [← hnd]; rfl
      have := low_length hk hlow
      omega
    show FileInfo33.mk (rstripWs (nd.filename.take 29)) (if nd.deleted = true then 127 else nd.ftype) nd.deleted (secOfTS nd.track nd.sector)
      (nd.numSectors % 65536) nd.track.toNat = _
    rw [e1, e2, e3, e4, e5, hdel]
  have hslots : (setDirent33 ds (getFreeDirent33 ds) nd).map (fun d => if d.deleted then none else some (d.reread 0).info) =
      ((catSeen33 b cs).map (kept33 b)).take (getFreeDirent33 ds) ++
        some (nd.reread 0).info :: ((catSeen33 b cs).map (kept33 b)).drop (getFreeDirent33 ds + 1) := by
    refine List.ext_getElem? fun j => ?_
    have hml : ((catSeen33 b cs).map (kept33 b)).length = ds.length := by rw [List.length_map, hdl]
    generalize hk : getFreeDirent33 ds = k at fs1
    have htl : (((catSeen33 b cs).map (kept33 b)).take k).length = k := by rw [List.length_take, hml]; omega
    rw [List.getElem?_map, getElem?_setDirent33 fs1]
    by_cases hjk : j = k
    · subst hjk
      rw [if_pos rfl, List.getElem?_append_right (by omega), htl, Nat.sub_self]
      show some (if nd.deleted = true then none else some (DDirent.reread 0 nd).info) = _
      rw [hdel]; rfl
    · rw [if_neg hjk, ← hds, getElem?_catList33, Option.map_map]
      have hr : (((catSeen33 b cs).map (kept33 b)).take k ++ some (nd.reread 0).info :: ((catSeen33 b cs).map (kept33 b)).drop (k + 1))[j]? =
          (catSeen33 b cs)[j]?.map (kept33 b) := by
        rcases Nat.lt_or_ge j k with hlt | hge
        · rw [List.getElem?_append_left (by omega), List.getElem?_take, if_pos hlt, List.getElem?_map]
        · rw [List.getElem?_append_right (by omega), htl, show j - k = (j - k - 1) + 1 by omega, List.getElem?_cons_succ,
            List.getElem?_drop, List.getElem?_map, show k + 1 + (j - k - 1) = j by omega]
      rw [hr]
      cases (catSeen33 b cs)[j]? with
      | none => rfl
      | some q => exact congrArg some (entryAt33_kept b j q)
  rw [hslots, hinfo] at hpk
  have hkeep : ∀ x ∈ cs, sec33 bB x = sec33 b x := fun x hx => hoB x (hne272 x hx)
  have hget : ∀ (j p : Nat), (catSeen33 b cs)[j]? = some p → ds[j]? = some (entryAt33 560 b j p) := by
    intro j p hp
    rw [← hds, getElem?_catList33, hp]
    rfl
  have hfile : ∀ w ∈ sl ++ tl, sec33 b' w.num = w.data := by
    intro w hw
    have hwn := (hall _ (hnum w hw)).2
    rw [hnot _ (fun h => hcs _ h hwn), hoD _ (fun h => h272 (h ▸ hwn)), ← hbC]
    exact sec33_writeAll_mem _ _ hlB hwr (by rw [hnums]; exact und) w hw
  have hs272 : sec33 b' 272 = vtocStore33 (sec33 b 272) map2 := (hnot 272 hv).trans hsD
  refine ⟨b', hbody, ⟨getFreeDirent33 ds, by rw [← hdl]; exact fs1, ?_, ?_, hpk.size, hpk.room, hpk.slot, hpk.zero,
    fun j x hj hx => (hpk.later j x hj hx).trans (hkeep x (List.mem_of_getElem? hx)),
    fun x hx => (hpk.link x hx).trans (by rw [← linkOf_sec33, ← linkOf_sec33]; exact congrArg linkOf (hkeep x hx))⟩,
    hlE, hchl, fun x hx => ⟨htsn x hx, htsl x hx⟩, hordl, ?_, ?_, ?_, ?_, ?_, vtocKept_store hb hs272⟩
  · intro p hp
    have := fs2 (entryAt33 560 b (getFreeDirent33 ds) p) (hget _ p hp)
    rw [entryAt33_deleted] at this
    exact of_decide_eq_true this
  · intro j p hj hp
    have := fs3 j (entryAt33 560 b j p) hj (hget j p hp)
    rw [entryAt33_deleted] at this
    exact of_decide_eq_false this
  · have := flatMap_written sl (fun w hw => hfile w (by simp [hw]))
    rw [l1, l2] at this
    rw [this, ← pieces33_flatten, buildSectors33, List.map_map]
    rfl
  · refine listChain_of_chain (chain_of_links tsOrder (fun n hn => ⟨htsn n hn, htsl n hn⟩) (fun j n hj => ?_))
    have hjl : j < tl.length := by rw [htll, ← r.len2]; exact (List.getElem?_eq_some_iff.mp hj).1
    obtain ⟨g, n', h1, h2, h3, h4⟩ := htlw j tl[j] (List.getElem?_eq_getElem hjl)
    rw [hj] at h2; injection h2 with h2; subst h2
    have := hfile tl[j] (by simp)
    rw [h3, h4] at this
    rw [this, linkOf_setNext (length_tsData (hg122 g (List.mem_of_getElem? h1))) (by have := getD_lt_560 htsl (j + 1); omega)]
  · intro j n g hg hn
    have hjl : j < tl.length := by rw [htll, ← r.len2]; exact (List.getElem?_eq_some_iff.mp hn).1
    obtain ⟨g', n', h1, h2, h3, h4⟩ := htlw j tl[j] (List.getElem?_eq_getElem hjl)
    rw [hg] at h1; injection h1 with h1; subst h1
    rw [hn] at h2; injection h2 with h2; subst h2
    have := hfile tl[j] (by simp)
    rw [h3, h4] at this
    exact this
  · intro s h1 h2 h3
    rw [hnot s h2, hoD s h1, ← hbC, sec33_writeAll_other _ _ hlB hwr s, hoB s h1]
    intro w hw he
    exact h3 (he ▸ hnum w hw)
  · intro s
    rw [isFree33_store hlE hvl hs272, r.bits, isFree33_iff hb]
    by_cases hms : s ∈ order ++ tsOrder
    · rw [if_pos hms]; simp [hms]
    · rw [if_neg hms]
      refine ⟨fun h => ⟨h.2, hms⟩, fun h => ⟨((isFree33_iff hb s).mpr h.1).1, h.1⟩⟩

theorem writeBody_any {b : Bytes} {cs : List Nat} {m : DImg} {name data : Bytes} {ftype : Nat} (hm : DImg.open b = .ok m)
    (v : Volume33 b cs) (hv : 272 ∉ cs) (hn : sectors33 b = 560) (hpairs : secByte33 b 272 0x27 = 122)
    (hcs : ∀ x ∈ cs, ¬ IsFree33 b x) (h272 : ¬ IsFree33 b 272) (hne : data ≠ []) (ha : Ascii33 name) (ht : ftype < 128)
    (hroom : (catSeen33 b cs).length < 7 * (cs.length - 1))
    (hk : dataSecs33 data.length + listSecs33 data.length ≤ (freePool33 b).length)
    (hlow : ∀ s ∈ (freePool33 b).take (dataSecs33 data.length + listSecs33 data.length), s < 560) :
    ∃ b', DImg.writeBody name ftype data m = (.ok (), { m with bytes := b' }) ∧
      Added33 b b' cs name ftype data ((freePool33 b).take (dataSecs33 data.length))
        (((freePool33 b).drop (dataSecs33 data.length)).take (listSecs33 data.length)) := by
  obtain ⟨b', h1, st⟩ := writeBody_pairs_any (ftype := ftype) hm v hv hn (by decide) (Nat.le_refl 122) hpairs hcs h272 hne ha ht hroom hk hlow
  refine ⟨b', h1, st.entry, st.size, st.contents, st.list, ?_, st.others, st.free, st.kept⟩
  have h2 : ((freePool33 b).take (dataSecs33 data.length)).length = dataSecs33 data.length := by rw [List.length_take]; omega
  have h3 : (((freePool33 b).drop (dataSecs33 data.length)).take (listSecs33 data.length)).length = listSecs33 data.length := by
    rw [List.length_take, List.length_drop]; omega
  have s1 := st.count
  have s2 := st.listIn
  have s3 := st.dataIn
  have s4 := st.lists
  have s5 := st.size
  clear st
  rw [show listSecsBy33 122 data.length = listSecs33 data.length from rfl] at s1 s2 s4
  generalize (freePool33 b).take (dataSecs33 data.length) = order at *
  generalize ((freePool33 b).drop (dataSecs33 data.length)).take (listSecs33 data.length) = tsOrder at *
  obtain ⟨z, hz⟩ := flatMap_pairs (b := b') (chunks 122 order) tsOrder s1 (fun g hg => (mem_chunks_length 122 (by omega) order g hg).2)
    (chunks_dropLast 122 (by omega) order)
    (fun g hg n hn => by
      have : n ∈ order := by
        rw [← chunks_flatten 122 (by omega) order]
        exact List.mem_flatten.mpr ⟨g, hg, hn⟩
      have := s3 n this; omega)
    (fun j n g hg hn => ⟨_, s4 j n g hg hn⟩)
  rw [flatMap_agree (fun t ht => listPairs33_eq s5 (s2 t ht).2)] at hz
  unfold dataSectors33
  rw [hz, chunks_flatten 122 (by omega), h3, if_pos (by omega), Nat.add_sub_cancel, ← h2, List.take_left]

/-- **C94, when adding succeeds.** There is room for one more entry in all catalog sectors but the last, and the bitmap offers enough
sectors, which are in the image; the list does not land on track 0, and what is put into the boot sector (if the bitmap offers
that) does not make it one of ProDOS. -/
theorem C94_write_succeeds {b : Bytes} {cs : List Nat} {m : DImg} {name data : Bytes} {ftype : Nat} (hm : DImg.open b = .ok m)
    (v : Volume33 b cs) (hv : 272 ∉ cs) (hn : sectors33 b = 560) (hpairs : secByte33 b 272 0x27 = 122)
    (hcs : ∀ x ∈ cs, ¬ IsFree33 b x) (h272 : ¬ IsFree33 b 272) (hne : data ≠ []) (ha : Ascii33 name) (ht : ftype < 128)
    (hroom : (catSeen33 b cs).length < 7 * (cs.length - 1))
    (hk : dataSecs33 data.length + listSecs33 data.length ≤ (freePool33 b).length)
    (hlow : ∀ s ∈ (freePool33 b).take (dataSecs33 data.length + listSecs33 data.length), s < 560)
    (htrack : 16 ≤ ((freePool33 b).drop (dataSecs33 data.length)).headD 0)
    (hboot : IsFree33 b 0 → data.take 4 ≠ [1, 56, 176, 3]) :
    ∃ m', DImg.writeFile name ftype data m = (.ok (), m') ∧ DImg.open m'.bytes = .ok m' ∧ Volume33 m'.bytes cs ∧ sectors33 m'.bytes = 560 ∧
      Added33 b m'.bytes cs name ftype data ((freePool33 b).take (dataSecs33 data.length))
        (((freePool33 b).drop (dataSecs33 data.length)).take (listSecs33 data.length)) := by
  have hb := v.size
  obtain ⟨_, _, h1, h3, h2, _⟩ := C77_opens b m hm
  obtain ⟨_, hallS⟩ := getDirectory_open hm v hn
  obtain ⟨b', hbody, ad⟩ := writeBody_any (ftype := ftype) hm v hv hn hpairs hcs h272 hne ha ht hroom hk hlow
  have hpos : 0 < data.length := List.length_pos_iff.mpr hne
  have hk0 : 0 < dataSecs33 data.length := by unfold dataSecs33; omega
  have ht1 : 0 < listSecs33 data.length := by unfold listSecs33; omega
  have hhead : (((freePool33 b).drop (dataSecs33 data.length)).take (listSecs33 data.length)).headD 0 = ((freePool33 b).drop (dataSecs33 data.length)).headD 0 := by
    cases (freePool33 b).drop (dataSecs33 data.length) with
    | nil => simp
    | cons x l =>
      obtain ⟨t, ht⟩ : ∃ t, listSecs33 data.length = t + 1 := ⟨listSecs33 data.length - 1, by omega⟩
      rw [ht]; rfl
  have hlist := ad.list
  have h560 : (((freePool33 b).drop (dataSecs33 data.length)).take (listSecs33 data.length)).headD 0 < 560 := by
    generalize ((freePool33 b).drop (dataSecs33 data.length)).take (listSecs33 data.length) = l at hlist
    cases l with
    | nil => exact (by decide : 0 < 560)
    | cons x l => cases hlist with | next _ h _ => exact h
  have h0 : b'.take 4 ≠ [1, 56, 176, 3] := by
    have ht4 : ∀ x : Bytes, (sec33 x 0).take 4 = x.take 4 := fun x => by simp [sec33, slice, List.take_take]
    by_cases hf : IsFree33 b 0
    · have hz : ∃ l, (freePool33 b).take (dataSecs33 data.length) = 0 :: l := by
        have hmem := mem_freePool33.mpr hf
        have hs := freePool33_sorted b
        obtain ⟨k, hk'⟩ : ∃ k, dataSecs33 data.length = k + 1 := ⟨dataSecs33 data.length - 1, by omega⟩
        rw [hk']
        generalize freePool33 b = l at hmem hs
        cases l with
        | nil => cases hmem
        | cons x l =>
          rcases List.mem_cons.mp hmem with h | h
          · rw [← h]; exact ⟨_, rfl⟩
          · have := (List.pairwise_cons.mp hs).1 0 h
            omega
      obtain ⟨l, hl⟩ := hz
      have hc := ad.contents
      rw [hl, List.flatMap_cons] at hc
      have h4 := congrArg (List.take 4) hc
      rw [List.take_append_of_le_length (by rw [length_sec33 ad.size (by omega)]; omega), ht4] at h4
      rw [h4]
      intro he
      apply hboot hf
      unfold padded33 at he
      by_cases hd : 4 ≤ data.length
      · rw [List.take_append_of_le_length hd] at he
        exact he
      · exfalso
        have hp : data ++ List.replicate ((256 - data.length % 256) % 256) 0 = data ++ 0 :: List.replicate ((256 - data.length % 256) % 256 - 1) 0 := by
          obtain ⟨z, hz⟩ : ∃ z, (256 - data.length % 256) % 256 = z + 1 := ⟨(256 - data.length % 256) % 256 - 1, by omega⟩
          rw [hz]; rfl
        rw [hp] at he
        have := congrArg (fun l => l.getD data.length (0 : UInt8)) he
        simp only [List.getD_eq_getElem?_getD] at this
        rw [List.getElem?_take, if_pos (by omega), List.getElem?_append_right (Nat.le_refl _), Nat.sub_self] at this
        have hcase : data.length = 1 ∨ data.length = 2 ∨ data.length = 3 := by omega
        rcases hcase with h | h | h <;> rw [h] at this <;> revert this <;> decide
    · have := ad.others 0 (by omega) (fun h => absurd rfl ((chain33_of_cat (hn ▸ v.chain)).lt 0 h).1) (fun h => hf ?_)
      · rw [← ht4, this, ht4]
        exact v.boot.1
      · rw [← List.take_add] at h
        exact mem_freePool33.mp (List.mem_of_mem_take h)
  have hold : ∀ f, some f ∈ (catSeen33 b cs).map (kept33 b) → f.track ≠ 0 ∧ f.first < 560 ∧ f.sectors ≤ 560 := by
    intro f hf
    obtain ⟨q, hq, hqf⟩ := List.mem_map.mp hf
    unfold kept33 at hqf
    by_cases hq255 : byteOf b q = 255
    · rw [if_pos hq255] at hqf; cases hqf
    · rw [if_neg hq255] at hqf
      injection hqf with hqf
      have hg := v.good q hq
      rw [hn] at hg
      rcases hg with hg | hg
      · exact absurd hg hq255
      · rw [← hqf]
        exact hg
  obtain ⟨i, i1, i2, i3, hpk⟩ := ad.entry
  obtain ⟨hvol, hn'⟩ := hpk.volume_boot v hn (by
    intro f hf _
    rcases List.mem_append.mp hf with hf | hf
    · exact hold f (List.mem_of_mem_take hf)
    · rcases List.mem_cons.mp hf with hf | hf
      · injection hf with hf
        rw [hf]
        refine ⟨?_, h560, ?_⟩
        · show _ / 16 ≠ 0
          rw [hhead]
          omega
        · exact low_length hk hlow
      · exact hold f (List.mem_of_mem_drop hf)) h0 ad.kept
  obtain ⟨mO, hO⟩ := C77_volume hvol
  have hOb := (open33_ok hO).2.1
  refine ⟨mO, ?_, by rw [hOb]; exact hO, by rw [hOb]; exact hvol, by rw [hOb]; exact hn', by rw [hOb]; exact ad⟩
  unfold DImg.writeFile DImg.transaction
  simp only
  rw [hbody]
  simp only
  exact getMetadata33_of_open (m2 := { m with bytes := b' }) hO rfl (h2.trans hn) hallS

end Atr
