import Verif.Props.Dos33WriteAny
import Verif.Props.Dos33Hang
import Verif.Spec.Dos33Holes
/-!
# C108: DOS 3.3 files with holes
-/
namespace Atr

theorem usedPairs33_pad (b : Bytes) (ts : List Nat) : ∃ z, ts.flatMap (listPairs33 b) = usedPairs33 b ts ++ List.replicate z 0 := by
  unfold usedPairs33
  generalize ts.flatMap (listPairs33 b) = l
  have h := List.takeWhile_append_dropWhile (p := (· == 0)) (l := l.reverse)
  have h2 : (l.reverse.takeWhile (· == 0)) = List.replicate (l.reverse.takeWhile (· == 0)).length 0 :=
    List.eq_replicate_iff.mpr ⟨rfl, fun x hx => by simpa using List.all_eq_true.mp List.all_takeWhile x hx⟩
  generalize l.reverse.takeWhile (· == 0) = t at h h2
  refine ⟨t.length, ?_⟩
  have h3 := congrArg List.reverse h
  rw [List.reverse_append, List.reverse_reverse] at h3
  conv => lhs; rw [← h3]
  congr 1
  conv => lhs; rw [h2]
  rw [List.reverse_replicate]

/-- **C108, the sectors.** With the right number in the catalog, the code takes as many of the pairs as there are data sectors, holes
included. -/
theorem C108_sectors (b : Bytes) (ts : List Nat) :
    dataSectors33 b (ts.length + (dataOf33 b ts).length) ts = (usedPairs33 b ts).take (dataOf33 b ts).length := by
  unfold dataSectors33
  rw [if_pos (by omega), Nat.add_sub_cancel_left]
  obtain ⟨z, hz⟩ := usedPairs33_pad b ts
  rw [hz, List.take_append_of_le_length]
  exact List.length_filter_le _ _

theorem dataOf33_lt {b : Bytes} {ts : List Nat} (h : 0 ∈ usedPairs33 b ts) : (dataOf33 b ts).length < (usedPairs33 b ts).length := by
  unfold dataOf33
  have h1 := List.length_filter_le (fun s => decide (s ≠ 0)) (usedPairs33 b ts)
  refine Nat.lt_of_le_of_ne h1 fun he => ?_
  have := (List.length_filter_eq_length_iff.mp he) 0 h
  simp at this

theorem dataOf33_all {b : Bytes} {ts : List Nat} (h : 0 ∉ usedPairs33 b ts) : dataOf33 b ts = usedPairs33 b ts := by
  unfold dataOf33
  refine List.filter_eq_self.mpr fun s hs => ?_
  have : s ≠ 0 := fun h0 => h (h0 ▸ hs)
  simpa using this

/-- the last pair of `usedPairs33` names a sector -/
theorem usedPairs33_last {b : Bytes} {ts : List Nat} (h : usedPairs33 b ts ≠ []) : ∃ l s, usedPairs33 b ts = l ++ [s] ∧ s ≠ 0 := by
  unfold usedPairs33 at h ⊢
  have hd := List.head?_dropWhile_not (p := (· == 0)) (ts.flatMap (listPairs33 b)).reverse
  generalize (ts.flatMap (listPairs33 b)).reverse.dropWhile (· == 0) = l at *
  cases l with
  | nil => exact absurd rfl h
  | cons x l => exact ⟨l.reverse, x, by simp, by simpa using hd⟩

/-- **C108, reading.** -/
theorem C108_read {b : Bytes} {d : DDirent} {ts : List Nat} (hb : b.length = 143360) (hd : d.isSane = true)
    (hts : ListChain33 560 b (secOfTS d.track d.sector) ts) (hnum : d.numSectors = ts.length + (dataOf33 b ts).length)
    (hne : usedPairs33 b ts ≠ []) (hlt : ∀ s ∈ usedPairs33 b ts, s < 560) :
    d.getFile 560 b = .ok (((usedPairs33 b ts).take (dataOf33 b ts).length).flatMap fun s => slice b (256 * s) (256 * s + 256)) := by
  have := ((C75_outcome (n := 560) hb hd).1 ts _ hts rfl).1
  rw [hnum, C108_sectors] at this
  refine this ⟨?_, fun s hs => ⟨hlt s (List.mem_of_mem_take hs), hlt s (List.mem_of_mem_take hs)⟩⟩
  obtain ⟨l, s, h1, h2⟩ := usedPairs33_last hne
  have h0 : s ∈ dataOf33 b ts := by
    unfold dataOf33
    rw [h1]
    simp [h2]
  have hpos := List.length_pos_of_mem h0
  intro hnil
  have := congrArg List.length hnil
  rw [List.length_take, h1, List.length_append, List.length_singleton, List.length_nil] at this
  omega

/-- **C108_partial.** A file without holes is read as DOS reads it, from all of its sectors. -/
theorem C108_read_partial {b : Bytes} {d : DDirent} {ts : List Nat} (hb : b.length = 143360) (hd : d.isSane = true)
    (hts : ListChain33 560 b (secOfTS d.track d.sector) ts) (hnum : d.numSectors = ts.length + (dataOf33 b ts).length)
    (hne : usedPairs33 b ts ≠ []) (hlt : ∀ s ∈ usedPairs33 b ts, s < 560) (hole : 0 ∉ usedPairs33 b ts) :
    d.getFile 560 b = .ok (holeContents33 b ts) := by
  rw [C108_read hb hd hts hnum hne hlt, dataOf33_all hole, List.take_length]
  congr 1
  refine flatMap_agree fun s hs => ?_
  have h0 : s ≠ 0 := fun h0 => hole (h0 ▸ hs)
  show _ = if s = 0 then _ else _
  rw [if_neg h0]

theorem length_holes (b : Bytes) (hb : b.length = 143360) (l : List Nat) (h : ∀ s ∈ l, s < 560) :
    (l.flatMap fun s => if s = 0 then List.replicate 256 0 else slice b (256 * s) (256 * s + 256)).length = 256 * l.length ∧
    (l.flatMap fun s => slice b (256 * s) (256 * s + 256)).length = 256 * l.length := by
  induction l with
  | nil => exact ⟨rfl, rfl⟩
  | cons s l ih =>
    obtain ⟨i1, i2⟩ := ih fun x hx => h x (by simp [hx])
    have hs := length_sec33 hb (h s (by simp))
    unfold sec33 at hs
    constructor
    · rw [List.flatMap_cons, List.length_append, i1, List.length_cons]
      split
      · rw [List.length_replicate]; omega
      · rw [hs]; omega
    · rw [List.flatMap_cons, List.length_append, i2, List.length_cons, hs]
      omega

/-- **C108, refuted, reading.** No file with a hole is read as DOS reads it: what is read is shorter by one sector for every hole. -/
theorem C108_read_refuted {b : Bytes} {d : DDirent} {ts : List Nat} (hb : b.length = 143360) (hd : d.isSane = true)
    (hts : ListChain33 560 b (secOfTS d.track d.sector) ts) (hnum : d.numSectors = ts.length + (dataOf33 b ts).length)
    (hlt : ∀ s ∈ usedPairs33 b ts, s < 560) (hole : 0 ∈ usedPairs33 b ts) :
    ∃ data, d.getFile 560 b = .ok data ∧ data ≠ holeContents33 b ts ∧
      data.length + 256 * (usedPairs33 b ts).count 0 = (holeContents33 b ts).length := by
  have hne : usedPairs33 b ts ≠ [] := List.ne_nil_of_mem hole
  refine ⟨_, C108_read hb hd hts hnum hne hlt, ?_⟩
  have hl := dataOf33_lt hole
  have h1 := (length_holes b hb _ hlt).1
  have h2 := (length_holes b hb ((usedPairs33 b ts).take (dataOf33 b ts).length) (fun s hs => hlt s (List.mem_of_mem_take hs))).2
  rw [List.length_take, Nat.min_eq_left (by omega)] at h2
  have hc : (dataOf33 b ts).length + (usedPairs33 b ts).count 0 = (usedPairs33 b ts).length := by
    have := List.length_eq_countP_add_countP (fun s : Nat => decide (s ≠ 0)) (l := usedPairs33 b ts)
    unfold dataOf33
    rw [← List.countP_eq_length_filter, this]
    congr 1
    unfold List.count
    refine List.countP_congr fun x _ => ?_
    simp
  unfold holeContents33
  refine ⟨fun he => ?_, ?_⟩
  · have := congrArg List.length he
    omega
  · omega

/-- **C108, deleting.** The sectors that are free afterwards. -/
theorem C108_delete {b : Bytes} {cs : List Nat} {m : DImg} (hm : DImg.open b = .ok m) (v : Volume33 b cs) (hv : 272 ∉ cs)
    (hn : sectors33 b = 560) {name : Bytes} {pre post : List Nat} {p : Nat} (hp : catSeen33 b cs = pre ++ p :: post) (hl : byteOf b p ≠ 255)
    (hname : (fileInfo33 b p).name = name) (hpre : ∀ q ∈ pre, (fileInfo33 b q).name ≠ name)
    {ts : List Nat} (hts : ListChain33 560 b (fileInfo33 b p).first ts) (hnum : (fileInfo33 b p).sectors = ts.length + (dataOf33 b ts).length)
    (hlt : ∀ s ∈ usedPairs33 b ts, s < 560) (hroom : ((catSeen33 b cs).length + 6) / 7 < cs.length) :
    ∃ m', DImg.deleteFile name m = (.ok (), m') ∧ DImg.open m'.bytes = .ok m' ∧ Volume33 m'.bytes cs ∧ sectors33 m'.bytes = 560 ∧
      Packed33 b m'.bytes cs (((catSeen33 b cs).map (kept33 b)).set pre.length none) ∧
      (∀ s, s ∉ cs → s ≠ 272 → sec33 m'.bytes s = sec33 b s) ∧
      (∀ s, IsFree33 m'.bytes s ↔ IsFree33 b s ∨ s ∈ ts ++ (usedPairs33 b ts).take (dataOf33 b ts).length) ∧
      ∀ i, i < 0x38 → secByte33 m'.bytes 272 i = secByte33 b 272 i := by
  have hts560 : ∀ s ∈ ts, s < 560 := by
    clear hnum hlt
    generalize (fileInfo33 b p).first = f at hts
    induction hts with
    | done => intro s hs; cases hs
    | next _ h _ ih =>
      intro s hs
      rcases List.mem_cons.mp hs with rfl | hs
      · exact h
      · exact ih s hs
  obtain ⟨m', h1, h2, h3, h4, h5, h6, h7, h8⟩ := C94_delete_succeeds hm v hv hn hp hl hname hpre hts (by
    intro s hs
    rw [hnum, C108_sectors] at hs
    rcases List.mem_append.mp hs with hs | hs
    · have := hts560 s hs; omega
    · have := hlt s (List.mem_of_mem_take hs); omega) hroom
  rw [hnum, C108_sectors] at h7
  exact ⟨m', h1, h2, h3, h4, h5, h6, h7, h8⟩

/-- **C108, refuted, deleting.** If the file has a hole, its last sector (named once and not free before) stays allocated after the
file is gone; and if the hole is among the pairs that are looked at, the boot sector is free. -/
theorem C108_delete_refuted {b : Bytes} {cs : List Nat} {m : DImg} (hm : DImg.open b = .ok m) (v : Volume33 b cs) (hv : 272 ∉ cs)
    (hn : sectors33 b = 560) {name : Bytes} {pre post : List Nat} {p : Nat} (hp : catSeen33 b cs = pre ++ p :: post) (hl : byteOf b p ≠ 255)
    (hname : (fileInfo33 b p).name = name) (hpre : ∀ q ∈ pre, (fileInfo33 b q).name ≠ name)
    {ts : List Nat} (hts : ListChain33 560 b (fileInfo33 b p).first ts) (hnum : (fileInfo33 b p).sectors = ts.length + (dataOf33 b ts).length)
    (hlt : ∀ s ∈ usedPairs33 b ts, s < 560) (hroom : ((catSeen33 b cs).length + 6) / 7 < cs.length)
    (hole : 0 ∈ usedPairs33 b ts) {l : List Nat} {s : Nat} (hlast : usedPairs33 b ts = l ++ [s]) (hs : s ∉ l ∧ s ∉ ts ∧ ¬ IsFree33 b s) :
    ∃ m', DImg.deleteFile name m = (.ok (), m') ∧ DImg.open m'.bytes = .ok m' ∧ s ∈ dataOf33 b ts ∧ ¬ IsFree33 m'.bytes s ∧
      (0 ∈ (usedPairs33 b ts).take (dataOf33 b ts).length → IsFree33 m'.bytes 0) := by
  obtain ⟨m', h1, h2, _, _, _, _, h7, _⟩ := C108_delete hm v hv hn hp hl hname hpre hts hnum hlt hroom
  refine ⟨m', h1, h2, ?_, ?_, fun h0 => (h7 0).mpr (.inr (by simp [h0]))⟩
  · obtain ⟨l', s', e1, e2⟩ := usedPairs33_last (List.ne_nil_of_mem hole)
    have : s = s' := by
      have := hlast.symm.trans e1
      exact (List.append_inj' this rfl).2 |> List.cons.inj |>.1
    unfold dataOf33
    rw [e1, this]
    simp [e2]
  · rw [h7]
    rintro (h | h)
    · exact hs.2.2 h
    · rcases List.mem_append.mp h with h | h
      · exact hs.2.1 h
      · have hk := dataOf33_lt hole
        rw [hlast, List.length_append, List.length_singleton] at hk
        rw [hlast, List.take_append_of_le_length (by omega)] at h
        exact hs.1 (List.mem_of_mem_take h)

/-- **C108, refuted, the boot sector.** On a disk with the boot sector free, the next file that is added begins in it.  (The conditions
are those of `C94_write_succeeds`.) -/
theorem C108_boot_refuted {b : Bytes} {cs : List Nat} {m : DImg} {name data : Bytes} {ftype : Nat} (hm : DImg.open b = .ok m)
    (v : Volume33 b cs) (hv : 272 ∉ cs) (hn : sectors33 b = 560) (hpairs : secByte33 b 272 0x27 = 122)
    (hcs : ∀ x ∈ cs, ¬ IsFree33 b x) (h272 : ¬ IsFree33 b 272) (hne : data ≠ []) (ha : Ascii33 name) (ht : ftype < 128)
    (hroom : (catSeen33 b cs).length < 7 * (cs.length - 1))
    (hk : dataSecs33 data.length + listSecs33 data.length ≤ (freePool33 b).length)
    (hlow : ∀ s ∈ (freePool33 b).take (dataSecs33 data.length + listSecs33 data.length), s < 560)
    (htrack : 16 ≤ ((freePool33 b).drop (dataSecs33 data.length)).headD 0)
    (hboot : data.take 4 ≠ [1, 56, 176, 3]) (h0 : IsFree33 b 0) :
    ∃ m', DImg.writeFile name ftype data m = (.ok (), m') ∧ DImg.open m'.bytes = .ok m' ∧ m'.bytes.take 256 = (padded33 data).take 256 := by
  obtain ⟨m', h1, h2, _, _, ad⟩ := C94_write_succeeds (ftype := ftype) hm v hv hn hpairs hcs h272 hne ha ht hroom hk hlow htrack (fun _ => hboot)
  refine ⟨m', h1, h2, ?_⟩
  have hpos : 0 < data.length := List.length_pos_iff.mpr hne
  have hk0 : 0 < dataSecs33 data.length := by unfold dataSecs33; omega
  have hz : ∃ l, (freePool33 b).take (dataSecs33 data.length) = 0 :: l := by
    have hmem := mem_freePool33.mpr h0
    have hs := freePool33_sorted b
    obtain ⟨k, hk'⟩ : ∃ k, dataSecs33 data.length = k + 1 := ⟨dataSecs33 data.length - 1, by omega⟩
    rw [hk']
    generalize freePool33 b = l at hmem hs
    cases l with
    | nil => cases hmem
    | cons x l =>
      rcases List.mem_cons.mp hmem with h | h
      · rw [← h]; exact ⟨_, rfl⟩
      · have := (List.pairwise_cons.mp hs).1 0 h
        omega
  obtain ⟨l, hl⟩ := hz
  have hc := ad.contents
  rw [hl, List.flatMap_cons] at hc
  have hs := length_sec33 ad.size (show 0 < 560 by omega)
  have e : m'.bytes.take 256 = sec33 m'.bytes 0 := by simp [sec33, slice]
  rw [e, ← hc, List.take_append_of_le_length (by omega), List.take_of_length_le (by omega)]

/-- **C108, refuted, shredding.** On a disk with the boot sector free, shredding fills it. -/
theorem C108_shred_refuted {b : Bytes} {cs : List Nat} {m : DImg} (hm : DImg.open b = .ok m) (v : Volume33 b cs) (hn : sectors33 b = 560)
    (fill : Nat) (h0 : IsFree33 b 0) : ∃ r m', DImg.shred fill m = (r, m') ∧ m'.bytes.take 256 = List.replicate 256 (UInt8.ofNat fill) := by
  have hb := v.size
  obtain ⟨_, _, h1, h3, h2, _⟩ := C77_opens b m hm
  have hgv : m.getVtocMap = .ok (vtocMap33 (sec33 b 272)) := by
    unfold DImg.getVtocMap getSec33
    rw [if_pos (by omega), h1]
  obtain ⟨b', e1, e2, e3, e4⟩ := shredLoop33 (map := vtocMap33 (sec33 b 272)) (length_vtocMap33 _) (UInt8.ofNat fill) (List.range 560) m
    (fun x hx => List.mem_range.mp hx) (by rw [h1]; exact hb)
  have hbody : DImg.shredBody fill m = (.ok (), { m with bytes := b' }) := by
    unfold DImg.shredBody
    rw [hgv]
    simp only
    rw [show List.range m.maxSectors = List.range 560 by rw [h2, hn], e1]
  have hs := e4 0 (by simp) ((isFree33_iff hb 0).mp h0)
  generalize hgm : DImg.getMetadata { m with bytes := b' } = y
  obtain ⟨r, m'⟩ := y
  refine ⟨r, m', ?_, ?_⟩
  · unfold DImg.shred DImg.transaction
    simp only
    rw [hbody]
    exact hgm
  · rw [getMetadata33_bytes hgm, ← hs]
    simp [sec33, slice]

/-! ### a disk with a random-access text file of which only record 1 was written -/

/-- catalog sector with a locked text file of two sectors, the list at track 1, sector 1 -/
def holeCat : Bytes := [0, 17, 14] ++ List.replicate 8 0 ++ ([1, 1, 0x80, 0xd4] ++ List.replicate 29 0xa0 ++ [2, 0]) ++ List.replicate 210 0

/-- file `T`: list in sector 17, a hole and sector 18; catalog: sectors 287 to 285 -/
def holeSec (s : Nat) : Bytes :=
  if s = 0 then List.replicate 256 0x60
  else if s = 272 then vtocBlank33 else if s = 287 then holeCat else if s = 286 then [0, 17, 13] ++ List.replicate 253 0
  else if s = 17 then List.replicate 14 0 ++ [1, 2] ++ List.replicate 240 0
  else if s = 18 then List.replicate 256 0xd4
  else List.replicate 256 0

theorem holeSec_length (s : Nat) : (holeSec s).length = 256 := by
  unfold holeSec
  split
  · exact List.length_replicate
  split
  · exact vtocBlank33_length
  split
  · decide +kernel
  split
  · decide +kernel
  split
  · decide +kernel
  split
  · decide +kernel
  · exact List.length_replicate

def holeDisk : Bytes := imgOf33 holeSec

theorem holeDisk_length : holeDisk.length = 143360 := imgOf33_length holeSec_length

theorem holeDisk_sec {s : Nat} (h : s < 560) : sec33 holeDisk s = holeSec s := sec33_flatMap holeSec_length h

attribute [local irreducible] holeDisk

theorem holeDisk_byte {s i : Nat} (hs : s < 560) (hi : i < 256) : secByte33 holeDisk s i = ((holeSec s).getD i 0).toNat := by
  unfold secByte33
  rw [← getD_sec33 hi, holeDisk_sec hs]

theorem holeDisk_pair {s i : Nat} (hs : s < 560) (hi : i < 255) : pairAt33 holeDisk s i = 16 * ((holeSec s).getD i 0).toNat + ((holeSec s).getD (i + 1) 0).toNat := by
  unfold pairAt33
  rw [holeDisk_byte hs (by omega), holeDisk_byte hs (by omega)]

theorem holeDisk_seen : catSeen33 holeDisk [287, 286, 285] = [73483] := by
  unfold catSeen33
  rw [List.flatMap_cons, List.flatMap_cons, List.flatMap_cons, List.flatMap_nil, List.append_nil, seenEntries33_eq, seenEntries33_eq, seenEntries33_eq,
    holeDisk_sec (by omega), holeDisk_sec (by omega), holeDisk_sec (by omega)]
  decide +kernel

theorem holeDisk_seen2 : [286, 285].flatMap (seenEntries33 holeDisk) = [] := by
  rw [List.flatMap_cons, List.flatMap_cons, List.flatMap_nil, List.append_nil, seenEntries33_eq, seenEntries33_eq,
    holeDisk_sec (by omega), holeDisk_sec (by omega)]
  decide +kernel

theorem holeDisk_sectors : sectors33 holeDisk = 560 := by
  unfold sectors33; rw [holeDisk_byte (by omega) (by omega), holeDisk_byte (by omega) (by omega)]; decide +kernel

theorem holeDisk_info : fileInfo33 holeDisk 73483 = ⟨[0x54], 0, true, 17, 2, 1⟩ := by
  have hat : ∀ j, j < 245 → byteOf holeDisk (73483 + j) = ((holeSec 287).getD (11 + j) 0).toNat := by
    intro j h
    have := holeDisk_byte (s := 287) (i := 11 + j) (by omega) (by omega)
    unfold secByte33 at this
    unfold byteOf
    rw [show 73483 + j = 256 * 287 + (11 + j) by omega, this]
  have hsl : slice holeDisk (73483 + 3) (73483 + 32) = slice (holeSec 287) 14 43 := by
    rw [← holeDisk_sec (by omega)]
    unfold sec33
    rw [slice_slice]
    congr 1
  have h0 := hat 0 (by omega)
  rw [Nat.add_zero] at h0
  have e : fileInfo33 holeDisk 73483 = fileInfo33 (holeSec 287) 11 := by
    unfold fileInfo33
    rw [hsl, h0, hat 1 (by omega), hat 2 (by omega), hat 33 (by omega), hat 34 (by omega)]
    rfl
  rw [e]
  decide +kernel

theorem holeDisk_live : byteOf holeDisk 73483 = 1 := congrArg FileInfo33.track holeDisk_info

theorem holeDisk_volume : Volume33 holeDisk [287, 286, 285] := by
  have h2 : pairAt33 holeDisk 272 1 = 287 := by rw [holeDisk_pair (by omega) (by omega)]; decide +kernel
  have h3 := holeDisk_sectors
  refine ⟨holeDisk_length, ⟨?_, fun _ => ?_⟩, by rw [h2, h3]; omega, ?_, ?_⟩
  · have h : holeDisk.take 4 = (holeSec 0).take 4 := by
      rw [← holeDisk_sec (by omega)]
      simp [sec33, slice, List.take_take]
    rw [h]
    decide +kernel
  · rw [holeDisk_byte (by omega) (by omega), holeDisk_byte (by omega) (by omega)]; decide +kernel
  · rw [h2, h3]
    refine .next (by omega) (by omega) (by omega) ?_
    rw [holeDisk_pair (by omega) (by omega), show 16 * ((holeSec 287).getD 1 0).toNat + ((holeSec 287).getD (1 + 1) 0).toNat = 286 by decide +kernel]
    refine .next (by omega) (by omega) (by omega) ?_
    rw [holeDisk_pair (by omega) (by omega), show 16 * ((holeSec 286).getD 1 0).toNat + ((holeSec 286).getD (1 + 1) 0).toNat = 285 by decide +kernel]
    refine .next (by omega) (by omega) (by omega) ?_
    rw [holeDisk_pair (by omega) (by omega), show 16 * ((holeSec 285).getD 1 0).toNat + ((holeSec 285).getD (1 + 1) 0).toNat = 0 by decide +kernel]
    exact .done
  · intro p hp
    have : p ∈ catSeen33 holeDisk [287, 286, 285] := hp
    rw [holeDisk_seen] at this
    rw [h3]
    right
    have key : ∀ f : FileInfo33, fileInfo33 holeDisk p = f → f.track ≠ 0 ∧ f.first < 560 ∧ f.sectors ≤ 560 →
        byteOf holeDisk p ≠ 0 ∧ 16 * byteOf holeDisk p + byteOf holeDisk (p + 1) < 560 ∧ byteOf holeDisk (p + 33) + 256 * byteOf holeDisk (p + 34) ≤ 560 := by
      rintro f rfl h
      exact h
    rw [List.mem_singleton.mp this]
    rw [List.mem_singleton.mp this] at key
    exact key _ holeDisk_info (by decide)

theorem holeDisk_list : ListChain33 560 holeDisk 17 [17] := by
  refine .next (by omega) (by omega) ?_
  rw [holeDisk_pair (by omega) (by omega)]
  exact .done

theorem holeDisk_pairs : usedPairs33 holeDisk [17] = [0, 18] := by
  unfold usedPairs33
  rw [List.flatMap_cons, List.flatMap_nil, List.append_nil, ← listPairs33_eq holeDisk_length (by omega), holeDisk_sec (by omega)]
  decide +kernel

theorem holeDisk_data : dataOf33 holeDisk [17] = [18] := by
  unfold dataOf33
  rw [holeDisk_pairs]
  rfl

theorem holeDisk_free (s : Nat) : IsFree33 holeDisk s ↔ (48 ≤ s ∧ s < 272) ∨ (288 ≤ s ∧ s < 560) := by
  unfold IsFree33
  rw [holeDisk_sec (by omega), show holeSec 272 = vtocBlank33 from rfl]
  constructor
  · rintro ⟨h1, h2⟩
    rw [vtocBlank33_free s h1] at h2
    simpa using h2
  · intro h
    have h1 : s < 800 := by omega
    refine ⟨h1, ?_⟩
    rw [vtocBlank33_free s h1]
    simpa using h

/-- **C108, refuted.** On a disk with one file, a locked text file with a hole: what is read is the boot sector, and not the zeros and
the sector that DOS reads; deleting the file succeeds and leaves its data sector allocated and the boot sector free; and a file
that is then added, or shredding, is written over the boot sector. -/
theorem C108_refuted : ∃ (b : Bytes) (m m1 : DImg), DImg.open b = .ok m ∧ m.names = [[0x54]] ∧
    holeContents33 b [17] = List.replicate 256 0 ++ List.replicate 256 0xd4 ∧ m.findFile [0x54] = .ok (List.replicate 256 0x60) ∧
    DImg.deleteFile [0x54] m = (.ok (), m1) ∧ ¬ IsFree33 m1.bytes 18 ∧ IsFree33 m1.bytes 0 ∧ m1.bytes.take 256 = List.replicate 256 0x60 ∧
    (∀ fill, ∃ r m2, DImg.shred fill m1 = (r, m2) ∧ m2.bytes.take 256 = List.replicate 256 (UInt8.ofNat fill)) ∧
    ∀ name data ftype, data ≠ [] → data.length ≤ 256 → data.take 4 ≠ [1, 56, 176, 3] → Ascii33 name → ftype < 128 →
      ∃ m2, DImg.writeFile name ftype data m1 = (.ok (), m2) ∧ m2.bytes.take 256 = padded33 data := by
  obtain ⟨m, hm⟩ := C77_volume holeDisk_volume
  have v := holeDisk_volume
  have hn := holeDisk_sectors
  have hlt : ∀ s ∈ usedPairs33 holeDisk [17], s < 560 := by rw [holeDisk_pairs]; decide
  have hnum : (fileInfo33 holeDisk 73483).sectors = [17].length + (dataOf33 holeDisk [17]).length := by rw [holeDisk_info, holeDisk_data]; rfl
  -- the file
  obtain ⟨_, hmb, _, ds0, _, hfi, hsane⟩ := open33_ok hm
  obtain ⟨cs, v', _, _, h2, _, hfiles⟩ := C77_opens _ m hm
  have hcs : cs = [287, 286, 285] := v.chain.unique v'.chain
  subst hcs
  have hent : fileEntries33 holeDisk [287, 286, 285] = [73483] := by
    unfold fileEntries33
    show (catSeen33 holeDisk [287, 286, 285]).filter _ = _
    rw [holeDisk_seen, List.filter_cons, if_pos (by rw [holeDisk_live]; decide)]
    rfl
  rw [hent] at hfiles
  obtain ⟨d, hd, hdi⟩ : ∃ d, m.files = [d] ∧ d.info = fileInfo33 holeDisk 73483 := by
    cases hf : m.files with
    | nil => rw [hf] at hfiles; cases hfiles
    | cons d l =>
      rw [hf] at hfiles
      cases l with
      | nil => exact ⟨d, rfl, (List.cons.inj hfiles).1⟩
      | cons _ _ => have := congrArg List.length hfiles; simp at this
  have hds : d.isSane = true := by
    refine hsane d ?_
    have : d ∈ m.files := by rw [hd]; simp
    rw [hfi] at this
    exact (List.mem_filter.mp this).1
  have hname : d.filename = [0x54] := by rw [show d.filename = d.info.name from rfl, hdi, holeDisk_info]
  have hfirst : secOfTS d.track d.sector = 17 := by rw [show secOfTS d.track d.sector = d.info.first from rfl, hdi, holeDisk_info]
  have hread : m.findFile [0x54] = .ok (List.replicate 256 0x60) := by
    rw [← hname, findFile_one hd, h2, hn, hmb, C108_read holeDisk_length hds (ts := [17]) (by rw [hfirst]; exact holeDisk_list)
      (by rw [← hnum, ← hdi]; rfl) (by rw [holeDisk_pairs]; decide) hlt, holeDisk_pairs, holeDisk_data]
    show Except.ok (sec33 holeDisk 0 ++ []) = _
    rw [holeDisk_sec (by omega), List.append_nil]
    rfl
  -- deleting it
  obtain ⟨m1, d1, d2, d3, d4, d5, d6, d7, d8⟩ := C108_delete hm v (by decide) hn (name := [0x54]) (pre := []) (post := []) (p := 73483)
    holeDisk_seen (by rw [holeDisk_live]; decide) (by rw [holeDisk_info]) (fun q hq => by cases hq)
    (ts := [17]) (by rw [holeDisk_info]; exact holeDisk_list) hnum hlt (by rw [holeDisk_seen]; decide)
  rw [holeDisk_pairs, holeDisk_data] at d7
  have hfree : ∀ s, IsFree33 m1.bytes s ↔ s = 0 ∨ s = 17 ∨ (48 ≤ s ∧ s < 272) ∨ (288 ≤ s ∧ s < 560) := by
    intro s
    rw [d7, holeDisk_free, show [17] ++ [0, 18].take [18].length = [17, 0] from rfl]
    simp only [List.mem_cons, List.not_mem_nil, or_false]
    omega
  have h0 : m1.bytes.take 256 = List.replicate 256 0x60 := by
    have : m1.bytes.take 256 = sec33 m1.bytes 0 := by simp [sec33, slice]
    rw [this, d6 0 (by decide) (by omega), holeDisk_sec (by omega)]
    rfl
  have hseen : catSeen33 m1.bytes [287, 286, 285] = [73483] := by
    have hslots : ((catSeen33 holeDisk [287, 286, 285]).map (kept33 holeDisk)).set ([] : List Nat).length none = [none] := by rw [holeDisk_seen]; rfl
    rw [hslots] at d5
    rw [C94_listing d5 (by decide) (by intro f hf; simp at hf)]
    show [73483] ++ [286, 285].flatMap (seenEntries33 holeDisk) = _
    rw [holeDisk_seen2]
    rfl
  have hpool : freePool33 m1.bytes = (List.range 800).filter fun s => decide (s = 0 ∨ s = 17 ∨ (48 ≤ s ∧ s < 272) ∨ (288 ≤ s ∧ s < 560)) := by
    unfold freePool33
    exact List.filter_congr fun s _ => by simp only [hfree s]
  have hpool2 : ∃ l, freePool33 m1.bytes = 0 :: 17 :: l := by
    rw [hpool]
    exact ⟨((List.range 800).filter fun s => decide (s = 0 ∨ s = 17 ∨ (48 ≤ s ∧ s < 272) ∨ (288 ≤ s ∧ s < 560))).drop 2, by decide +kernel⟩
  refine ⟨holeDisk, m, m1, hm, ?_, ?_, hread, d1, ?_, (hfree 0).mpr (.inl rfl), h0,
    fun fill => C108_shred_refuted d2 d3 d4 fill ((hfree 0).mpr (.inl rfl)), ?_⟩
  · unfold DImg.names
    rw [hd, List.map_cons, hname]
    rfl
  · unfold holeContents33
    rw [holeDisk_pairs]
    show List.replicate 256 0 ++ (sec33 holeDisk 18 ++ []) = _
    rw [holeDisk_sec (by omega), List.append_nil]
    rfl
  · rw [hfree]; omega
  · intro name data ftype hne hlen hboot ha ht
    have hpos : 0 < data.length := List.length_pos_iff.mpr hne
    have hk1 : dataSecs33 data.length = 1 := by unfold dataSecs33; omega
    have ht1 : listSecs33 data.length = 1 := by unfold listSecs33; rw [hk1]
    obtain ⟨l, hl⟩ := hpool2
    have hp122 : secByte33 m1.bytes 272 0x27 = 122 := by
      rw [d8 _ (by omega), holeDisk_byte (by omega) (by omega)]
      decide +kernel
    obtain ⟨m2, w1, _, w3⟩ := C108_boot_refuted (ftype := ftype) d2 d3 (by decide) d4 hp122
      (by intro x hx hf
          rw [hfree] at hf
          simp only [List.mem_cons, List.not_mem_nil, or_false] at hx
          omega)
      (by rw [hfree]; omega) hne ha ht (by rw [hseen]; decide) (by rw [hk1, ht1, hl]; simp)
      (by rw [hk1, ht1, hl]
          intro s hs
          simp at hs
          omega)
      (by rw [hk1, hl]; show 16 ≤ 17; decide) hboot ((hfree 0).mpr (.inl rfl))
    refine ⟨m2, w1, ?_⟩
    rw [w3]
    refine List.take_of_length_le ?_
    unfold padded33
    rw [List.length_append, List.length_replicate]
    omega

/-- C108 on a file without holes: file `A` of `dupDisk`, whose list names sector 18 -/
example (d : DDirent) (hd : d.isSane = true) (h1 : secOfTS d.track d.sector = 17) (h2 : d.numSectors = 2) :
    d.getFile 560 dupDisk = .ok (holeContents33 dupDisk [17]) := by
  have hp : usedPairs33 dupDisk [17] = [18] := by
    unfold usedPairs33
    rw [List.flatMap_cons, List.flatMap_nil, List.append_nil, ← listPairs33_eq dupDisk_length (by omega), dupDisk_sec (by omega)]
    decide +kernel
  have hd18 : dataOf33 dupDisk [17] = [18] := by unfold dataOf33; rw [hp]; rfl
  exact C108_read_partial dupDisk_length hd (by rw [h1]; exact dupDisk_list 17 (.inl rfl)) (by rw [h2, hd18]; rfl) (by rw [hp]; decide)
    (by rw [hp]; decide) (by rw [hp]; decide)

end Atr
