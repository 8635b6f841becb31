import Verif.Props.Dos33PairsWrite
import Verif.Props.Autorun
/-!
# C128: removing a file from a disk whose VTOC states another number of pairs
-/
namespace Atr

/-- **C128 (partial).** Let a disk that opens hold a file in the sectors `nums` with lists of `p` pairs in the sectors `order`, as `write_file` makes them when the VTOC states
`p`.  If the catalog has room, deleting the file succeeds.  If `p` is 122 or one list was enough, exactly the sectors of the file become free.  Otherwise the boot sector
becomes free, and one of the sectors of the file does not.  In no case another sector becomes free. -/
theorem C128_delete_partial {b : Bytes} {cs : List Nat} {m : DImg} (hm : DImg.open b = .ok m) (v : Volume33 b cs) (hv : 272 ∉ cs) (hn : sectors33 b = 560)
    {name : Bytes} {pre post : List Nat} {q : Nat} (hq : catSeen33 b cs = pre ++ q :: post) (hl : byteOf b q ≠ 255)
    (hname : (fileInfo33 b q).name = name) (hpre : ∀ x ∈ pre, (fileInfo33 b x).name ≠ name) (hroom : ((catSeen33 b cs).length + 6) / 7 < cs.length)
    {p : Nat} {nums order : List Nat} (hp0 : 0 < p) (hp : p ≤ 122) (hnums : ∀ n ∈ nums, n ≠ 0 ∧ n < 560) (hne : nums ≠ [])
    (hlen : (chunks p nums).length = order.length) (hin : ∀ n ∈ order, n ≠ 0 ∧ n < 560)
    (hsec : ∀ (j n : Nat) (g : List Nat), (chunks p nums)[j]? = some g → order[j]? = some n → sec33 b n = splice (tsData g) 1 (tsBytes (order.getD (j + 1) 0)))
    (hchain : ListChain33 560 b (order.headD 0) order)
    (hfirst : (fileInfo33 b q).first = order.headD 0) (hnum : (fileInfo33 b q).sectors = nums.length + order.length)
    (hnd : (nums ++ order).Nodup) (hused : ∀ s ∈ nums ++ order, ¬ IsFree33 b s) :
    ∃ m', DImg.deleteFile name m = (.ok (), m') ∧ DImg.open m'.bytes = .ok m' ∧
      (p = 122 ∨ nums.length ≤ p → ∀ s, IsFree33 m'.bytes s ↔ IsFree33 b s ∨ s ∈ nums ++ order) ∧
      (p < 122 → p < nums.length → IsFree33 m'.bytes 0 ∧ ∃ s ∈ nums, ¬ IsFree33 m'.bytes s) ∧
      (∀ s, IsFree33 b s → IsFree33 m'.bytes s) ∧ (∀ s, IsFree33 m'.bytes s → IsFree33 b s ∨ s = 0 ∨ s ∈ nums ++ order) ∧
      Volume33 m'.bytes cs ∧ sectors33 m'.bytes = 560 ∧ Packed33 b m'.bytes cs (((catSeen33 b cs).map (kept33 b)).set pre.length none) ∧
      secByte33 m'.bytes 272 0x27 = secByte33 b 272 0x27 := by
  have hdi : (entryAt33 560 b 0 q).info = fileInfo33 b q := entryAt33_info hl
  generalize entryAt33 560 b 0 q = d at hdi
  have hd1 : secOfTS d.track d.sector = order.headD 0 := (congrArg FileInfo33.first hdi).trans hfirst
  have hd2 : d.numSectors = nums.length + order.length := (congrArg FileInfo33.sectors hdi).trans hnum
  obtain ⟨map, r1, r2, r3, r4, r5⟩ := tsMap_lists (d := d) v.size hp0 hp hnums hne hlen hin hsec hd1 hd2
  have hmap : dataSectors33 b (fileInfo33 b q).sectors order = map := by
    have := tsMap_of_chain (n := 560) (d := d) (by rw [hd1]; exact hchain)
    rw [r1, hd2, ← hnum] at this
    exact (Prod.mk.inj (Except.ok.inj this)).2.symm
  obtain ⟨m', e1, e2, e3, e4, e5, _, e7, e8⟩ := C94_delete_succeeds hm v hv hn hq hl hname hpre (ts := order) (by rw [hfirst]; exact hchain)
    (by
      rw [hmap]
      intro s hs
      rcases List.mem_append.mp hs with hs | hs
      · have := (hin s hs).2; omega
      · rcases r5 s hs with rfl | h
        · omega
        · have := (hnums s h).2; omega) hroom
  rw [hmap] at e7
  refine ⟨m', e1, e2, fun h s => ?_, fun h1 h2 => ?_, fun s h => (e7 s).mpr (.inl h), fun s h => ?_, e3, e4, e5, e8 _ (by omega)⟩
  · rw [e7, r3.mpr h, List.mem_append, List.mem_append]
    exact or_congr Iff.rfl Or.comm
  · have h0 : 0 ∈ map := List.mem_of_getElem? (r4 h1 h2)
    refine ⟨(e7 0).mpr (.inr (by simp [h0])), ?_⟩
    have hex : ¬ ∀ s ∈ nums, s ∈ map := by
      intro hall
      have := nodup_subset_length_nat (0 :: nums) map
        (List.nodup_cons.mpr ⟨fun h => (hnums 0 h).1 rfl, (List.nodup_append.mp hnd).1⟩)
        (fun x hx => by
          rcases List.mem_cons.mp hx with rfl | hx
          · exact h0
          · exact hall x hx)
      rw [List.length_cons] at this
      omega
    obtain ⟨s, hs⟩ := Classical.not_forall.mp hex
    obtain ⟨hs1, hs2⟩ := Classical.not_imp.mp hs
    refine ⟨s, hs1, ?_⟩
    rw [e7]
    rintro (h | h)
    · exact hused s (by simp [hs1]) h
    · rcases List.mem_append.mp h with h | h
      · exact (List.nodup_append.mp hnd).2.2 s hs1 s h rfl
      · exact hs2 h
  · rcases (e7 s).mp h with h | h
    · exact .inl h
    · rcases List.mem_append.mp h with h | h
      · exact .inr (.inr (by simp [h]))
      · rcases r5 s h with h | h
        · exact .inr (.inl h)
        · exact .inr (.inr (by simp [h]))

/-- **C128, refuted.** On the disk of `C127_refuted` every file of 257 to 512 bytes can be added and removed again without an error.  Then the boot sector is free, and a
sector that was free at first is not.  The next file, of 4 to 256 bytes (not those that begin as a ProDOS boot sector), is written over the boot sector without an error. -/
theorem C128_refuted : ∃ (b : Bytes) (m : DImg), DImg.open b = .ok m ∧ secByte33 b 272 0x27 = 1 ∧ ¬ IsFree33 b 0 ∧
    ∀ name data ftype, 256 < data.length → data.length ≤ 512 → Ascii33 name → 0 < ftype → ftype < 128 →
      ∃ m1 m2 s, DImg.writeFile name ftype data m = (.ok (), m1) ∧ DImg.deleteFile (norm33 name) m1 = (.ok (), m2) ∧ DImg.open m2.bytes = .ok m2 ∧
        IsFree33 m2.bytes 0 ∧ IsFree33 b s ∧ ¬ IsFree33 m2.bytes s ∧
        ∀ name' data' ftype', 4 ≤ data'.length → data'.length ≤ 256 → data'.take 4 ≠ [1, 56, 176, 3] → Ascii33 name' → ftype' < 128 →
          ∃ m3, DImg.writeFile name' ftype' data' m2 = (.ok (), m3) ∧ DImg.open m3.bytes = .ok m3 ∧ m3.bytes.take 256 = padded33 data' := by
  have v := pairs1Disk_volume
  have hn := pairs1Disk_sectors
  obtain ⟨m, hm⟩ := C77_volume v
  have hp1 : secByte33 pairs1Disk 272 0x27 = 1 := by rw [pairs1Disk_byte (by omega) (by omega)]; decide +kernel
  have hboot : ¬ IsFree33 pairs1Disk 0 := by rw [pairs1Disk_free]; omega
  refine ⟨pairs1Disk, m, hm, hp1, hboot, ?_⟩
  intro name data ftype hd1 hd2 ha ht0 ht
  have hds : dataSecs33 data.length = 2 := by unfold dataSecs33; omega
  have hls : listSecsBy33 1 data.length = 2 := by unfold listSecsBy33; rw [hds]
  obtain ⟨l, hl⟩ := pairs1Disk_pool
  obtain ⟨m1, order, tsOrder, o1, o2, k1, k2, hv', hn', st, hol, htl, hfreeAll, hnd, _⟩ :=
    writeFile_pairs_any (ftype := ftype) (name := name) (data := data) hm v (by decide) hn (by decide : 0 < 1) (by decide) hp1
    (fun x hx => by
      rw [pairs1Disk_free]
      simp only [List.mem_cons, List.not_mem_nil, or_false] at hx
      omega)
    (by rw [pairs1Disk_free]; omega) hboot (by rintro rfl; simp at hd1) ha ht (by rw [pairs1Disk_seen]; decide)
    (by rw [hds, hls, hl]; simp) (by rw [hds, hls, hl]; simp) (by rw [hds, hl]; simp)
  obtain ⟨i, _, _, _, k6⟩ := st.entry
  generalize hf : (⟨norm33 name, ftype, false, tsOrder.headD 0, dataSecs33 data.length + listSecsBy33 1 data.length, tsOrder.headD 0 / 16⟩ : FileInfo33) = f at k6
  have hslots : (((catSeen33 pairs1Disk [287, 286]).map (kept33 pairs1Disk)).take i ++ some f :: ((catSeen33 pairs1Disk [287, 286]).map (kept33 pairs1Disk)).drop (i + 1)) = [some f] := by
    rw [pairs1Disk_seen]; simp
  rw [hslots] at k6
  have hseen : catSeen33 m1.bytes [287, 286] = [73483] := by
    rw [C94_listing k6 (by decide) (by
      intro g hg
      rw [List.mem_singleton] at hg
      injection hg with hg
      rw [hg, ← hf]
      exact .inl (by show ftype ≠ 0; omega))]
    rw [show [some f].length = 1 from rfl]
    show [73483] ++ [286].flatMap (seenEntries33 pairs1Disk) = _
    rw [pairs1Disk_seen2]
    rfl
  have hslot : byteOf m1.bytes 73483 ≠ 255 ∧ fileInfo33 m1.bytes 73483 = f := k6.slot 0 (some f) rfl
  obtain ⟨m2, d1, d2, _, d4, d5, d6, d7, d8, d9, d10⟩ := C128_delete_partial (name := norm33 name) (p := 1) (nums := order) (order := tsOrder) (pre := []) (post := []) (q := 73483) k2 hv' (by decide) hn' hseen
    hslot.1 (by rw [hslot.2, ← hf]) (fun x hx => by cases hx) (by rw [hseen]; decide) (by decide) (by decide)
    (fun n h => ⟨fun h0 => hboot (h0 ▸ hfreeAll n (by simp [h])), st.dataIn n h⟩) (by intro h; rw [h, hds] at hol; simp at hol)
    st.count st.listIn st.lists st.list (by rw [hslot.2, ← hf]) (by rw [hslot.2, ← hf, hol, htl]) hnd
    (fun s hs h => ((st.free s).mp h).2 hs)
  obtain ⟨f1, s, f2, f3⟩ := d4 (by decide) (by rw [hol, hds]; decide)
  refine ⟨m1, m2, s, k1, d1, d2, f1, hfreeAll s (by simp [f2]), f3, ?_⟩
  have hlow : ∀ s, IsFree33 m2.bytes s → s = 0 ∨ (48 ≤ s ∧ s < 272) ∨ (288 ≤ s ∧ s < 560) := by
    intro s hs
    rcases d6 s hs with h | h | h
    · exact .inr ((pairs1Disk_free s).mp ((st.free s).mp h).1)
    · exact .inl h
    · exact .inr ((pairs1Disk_free s).mp (hfreeAll s h))
  have hslots2 : ((catSeen33 m1.bytes [287, 286]).map (kept33 m1.bytes)).set ([] : List Nat).length none = [none] := by rw [hseen]; rfl
  rw [hslots2] at d9
  have hseen2 : catSeen33 m2.bytes [287, 286] = [73483] := by
    rw [C94_listing d9 (by decide) (by intro f hf; simp at hf)]
    have : [286].flatMap (seenEntries33 m1.bytes) = [] := by
      have h := hseen
      unfold catSeen33 at h
      rw [List.flatMap_cons] at h
      by_cases hne : seenEntries33 m1.bytes 287 = []
      · rw [hne, List.nil_append, List.flatMap_cons, List.flatMap_nil, List.append_nil] at h
        have hm : 73483 ∈ seenEntries33 m1.bytes 286 := by rw [h]; simp
        unfold seenEntries33 at hm
        have := (List.takeWhile_sublist _).subset hm
        exact absurd this (by decide +kernel)
      · cases hc : seenEntries33 m1.bytes 287 with
        | nil => exact absurd hc hne
        | cons x l =>
          rw [hc, List.cons_append] at h
          have := (List.cons.inj h).2
          exact (List.append_eq_nil_iff.mp this).2
    show [73483] ++ [286].flatMap (seenEntries33 m1.bytes) = _
    rw [this]
    rfl
  have hpool : ∃ y l, freePool33 m2.bytes = 0 :: y :: l ∧ 48 ≤ y ∧ y < 560 := by
    have hz := mem_freePool33.mpr f1
    have hs := freePool33_sorted m2.bytes
    have hy : ∃ y, y ≠ 0 ∧ y ∈ freePool33 m2.bytes := by
      have hlast : 559 ∉ order ++ tsOrder := by
        rw [o1, o2, hds, hls, hl]
        simp
      exact ⟨559, by omega, mem_freePool33.mpr (d5 559 ((st.free 559).mpr ⟨(pairs1Disk_free 559).mpr (by omega), hlast⟩))⟩
    have hall : ∀ y ∈ freePool33 m2.bytes, y ≠ 0 → 48 ≤ y ∧ y < 560 := by
      intro y hy h0
      rcases hlow y (mem_freePool33.mp hy) with h | h | h <;> omega
    generalize freePool33 m2.bytes = pool at *
    cases pool with
    | nil => cases hz
    | cons a pool =>
      have ha : a = 0 := by
        rcases List.mem_cons.mp hz with h | h
        · exact h.symm
        · have := (List.pairwise_cons.mp hs).1 0 h
          omega
      subst ha
      obtain ⟨y, hy0, hy⟩ := hy
      cases pool with
      | nil => rw [List.mem_singleton] at hy; exact absurd hy hy0
      | cons c pool =>
        have := (List.pairwise_cons.mp hs).1 c (by simp)
        exact ⟨c, pool, rfl, hall c (by simp) (by omega)⟩
  obtain ⟨y, l2, hpool, hy1, hy2⟩ := hpool
  intro name' data' ftype' hd3 hd4 hd5 ha' ht'
  have hds' : dataSecs33 data'.length = 1 := by unfold dataSecs33; omega
  have hls' : listSecsBy33 1 data'.length = 1 := by unfold listSecsBy33; rw [hds']
  obtain ⟨b3, hbody, ad⟩ := writeBody_pairs_any (p := 1) (ftype := ftype') (name := name') (data := data') d2 d7 (by decide) d8 (by decide) (by decide)
    (by
      rw [d10, ← hp1]
      have := st.kept.keep 0x27 (by omega)
      rw [getD_sec33 (by omega), getD_sec33 (by omega)] at this
      unfold secByte33
      rw [this])
    (fun x hx h => by
      have := hlow x h
      simp only [List.mem_cons, List.not_mem_nil, or_false] at hx
      omega)
    (fun h => by have := hlow 272 h; omega) (by rintro rfl; simp at hd3) ha' ht' (by rw [hseen2]; decide)
    (by rw [hds', hls', hpool]; simp) (by rw [hds', hls', hpool]; simp; omega)
  rw [hds', hls', hpool] at ad
  have ad : Stored33 1 m2.bytes b3 [287, 286] name' ftype' data' [0] [y] := ad
  have hc := ad.contents
  rw [List.flatMap_cons, List.flatMap_nil, List.append_nil] at hc
  have ht4 : b3.take 256 = padded33 data' := by
    rw [← hc]
    simp [sec33, slice]
  obtain ⟨j, _, _, _, hpk⟩ := ad.entry
  obtain ⟨hvol, hn3⟩ := hpk.volume_boot d7 d8 (by
    intro g hg _
    rw [hseen2] at hg
    have hk2 : kept33 m2.bytes 73483 = none := by
      have : SlotIs33 m2.bytes 73483 none := d9.slot 0 none rfl
      unfold kept33
      exact if_pos this
    rw [List.map_cons, List.map_nil, hk2] at hg
    rcases List.mem_append.mp hg with hg | hg
    · have := List.mem_of_mem_take hg; simp at this
    · rcases List.mem_cons.mp hg with hg | hg
      · injection hg with hg
        rw [hg]
        refine ⟨?_, hy2, ?_⟩
        · show y / 16 ≠ 0
          omega
        · show dataSecs33 data'.length + listSecsBy33 1 data'.length ≤ 560
          omega
      · have := List.mem_of_mem_drop hg; simp at this)
    (by
      intro h
      apply hd5
      have h4 := congrArg (List.take 4) ht4
      rw [List.take_take, Nat.min_eq_left (by omega)] at h4
      rw [h4] at h
      unfold padded33 at h
      rwa [List.take_append_of_le_length hd3] at h) ad.kept
  obtain ⟨m3, hO⟩ := C77_volume hvol
  have hOb := (open33_ok hO).2.1
  obtain ⟨_, hallS⟩ := getDirectory_open d2 d7 d8
  obtain ⟨_, _, _, _, h2, _⟩ := C77_opens _ m2 d2
  refine ⟨m3, ?_, by rw [hOb]; exact hO, by rw [hOb]; exact ht4⟩
  unfold DImg.writeFile DImg.transaction
  simp only
  rw [hbody]
  simp only
  exact getMetadata33_of_open (m2 := { m2 with bytes := b3 }) hO rfl (h2.trans d8) hallS

end Atr
