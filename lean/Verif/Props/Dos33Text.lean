import Verif.Props.Dos33Locked
import Verif.Props.Outcome
import Verif.Spec.Display

/-! # C97: the type a new file of a DOS 3.3 disk gets -/

namespace Atr

/-- the letters a type can be given by -/
def typeLetters : List Char := ['T', 'I', 'A', 'B', 'S', 'R', 'a', 'b']

theorem type_letter (c : Char) : kindOf33 (textToType33 c) = if c ∈ typeLetters then c else 'B' := by
  by_cases h : c ∈ typeLetters
  · rw [if_pos h]
    unfold typeLetters at h
    simp only [List.mem_cons, List.not_mem_nil, or_false] at h
    rcases h with rfl | rfl | rfl | rfl | rfl | rfl | rfl | rfl <;> decide
  · rw [if_neg h]
    have : textToType33 c = 4 := by
      unfold textToType33
      split <;> first | rfl | exact absurd (by decide) h
    rw [this]
    decide

theorem type_small (c : Char) : textToType33 c < 128 := by
  unfold textToType33
  split <;> decide

theorem type_text (c : Char) : textToType33 c = 0 ↔ c = 'T' := by
  unfold textToType33
  split <;> simp_all

/-- **C97, the type.** A file added to a consistent DOS 3.3 volume with `--filetype c` is listed with the letter `c`; with `B` if `c` is none
of the letters. -/
theorem C97_listed {m m' : DImg} {cs ds} {name data : Bytes} {c : Char} (hm : Mounted33 m cs ds) (hc : c ≠ 'T') (hnew : norm33 name ∉ m.names)
    (hw : (dos33Driver c).write name data m = (.ok (), m')) :
    ∃ ty, (norm33 name, ty, .ok (padded33 data)) ∈ m'.listing ∧ kindOf33 ty = if c ∈ typeLetters then c else 'B' :=
  ⟨_, (C10_write_any_name hm (type_small c) (fun h => hc ((type_text c).mp h)) hnew hw).2, type_letter c⟩

/-- **C97, any disk.** On any DOS 3.3 disk the catalog entry of the new file has this type and is not locked. -/
theorem C97_entry {b : Bytes} {cs : List Nat} {m m' : DImg} {name data : Bytes} {c : Char} (hm : DImg.open b = .ok m)
    (v : Volume33 b cs) (hv : 272 ∉ cs) (hn : sectors33 b = 560) (hcsne : cs ≠ []) (hfree : ∀ x ∈ cs, ¬ IsFree33 b x)
    (h : (dos33Driver c).write name data m = (.ok (), m')) :
    ∃ i f, kindOf33 f.ftype = (if c ∈ typeLetters then c else 'B') ∧ f.name = norm33 name ∧ f.locked = false ∧
      Packed33 b m'.bytes cs (((catSeen33 b cs).map (kept33 b)).take i ++ some f :: ((catSeen33 b cs).map (kept33 b)).drop (i + 1)) := by
  obtain ⟨i, f, _, _, _, h4, h5, h6, _, h8⟩ := C94_write hm v hv hn hcsne hfree (type_small c) h
  exact ⟨i, f, by rw [h5]; exact type_letter c, h4, h6, h8⟩

/-! ### text files -/

theorem byteOf_same {b b' : Bytes} {x k : Nat} (hk : k < 7) (hs : sec33 b' x = sec33 b x) (a : Nat) (ha : a < 35) :
    byteOf b' (256 * x + 11 + 35 * k + a) = byteOf b (256 * x + 11 + 35 * k + a) := by
  have : ((sec33 b' x).getD (11 + 35 * k + a) 0).toNat = ((sec33 b x).getD (11 + 35 * k + a) 0).toNat := by rw [hs]
  rw [getD_sec33 (by omega), getD_sec33 (by omega)] at this
  unfold byteOf
  simpa only [← Nat.add_assoc] using this

theorem firstByte33_same {b b' : Bytes} {x k : Nat} (hk : k < 7) (hs : sec33 b' x = sec33 b x) :
    byteOf b' (256 * x + 11 + 35 * k) = byteOf b (256 * x + 11 + 35 * k) := byteOf_same hk hs 0 (by omega)

/-- entries of equal catalog sectors are equal -/
theorem fileInfo33_same {b b' : Bytes} {x k : Nat} (hk : k < 7) (hs : sec33 b' x = sec33 b x) :
    fileInfo33 b' (256 * x + 11 + 35 * k) = fileInfo33 b (256 * x + 11 + 35 * k) := by
  have hb := byteOf_same hk hs
  unfold fileInfo33
  rw [firstByte33_same hk hs, hb 1 (by omega), hb 2 (by omega), hb 33 (by omega), hb 34 (by omega)]
  have e : ∀ y : Bytes, slice y (256 * x + 11 + 35 * k + 3) (256 * x + 11 + 35 * k + 32) = slice (sec33 y x) (11 + 35 * k + 3) (11 + 35 * k + 32) := by
    intro y
    unfold sec33
    rw [slice_slice, show min (256 * x + 256) (256 * x + (11 + 35 * k + 32)) = 256 * x + 11 + 35 * k + 32 by omega,
      show 256 * x + (11 + 35 * k + 3) = 256 * x + 11 + 35 * k + 3 by omega]
  rw [e, e, hs]

/-- **C97, text files.** A file added with `--filetype T` is not on the disk afterwards: no listed file has its name (unless one had it
before, up to blanks at the end).  The entry is written, but its type byte 0 ends the catalog sector. -/
theorem C97_text {b : Bytes} {cs : List Nat} {m m' : DImg} {name data : Bytes} (hm : DImg.open b = .ok m) (v : Volume33 b cs)
    (hv : 272 ∉ cs) (hn : sectors33 b = 560) (hcsne : cs ≠ []) (hfree : ∀ x ∈ cs, ¬ IsFree33 b x) (hnew : ∀ x ∈ m.names, rstripWs x ≠ norm33 name)
    (h : (dos33Driver 'T').write name data m = (.ok (), m')) (hm' : DImg.open m'.bytes = .ok m') (v' : Volume33 m'.bytes cs) :
    norm33 name ∉ m'.names := by
  obtain ⟨i, f, hi, _, _, h4, h5, h6, _, h8⟩ := C94_write hm v hv hn hcsne hfree (type_small 'T') h
  rw [names_of_entries hm v] at hnew
  rw [names_of_entries hm' v']
  intro hmem
  obtain ⟨p, hp, hpn⟩ := List.mem_map.mp hmem
  unfold fileEntries33 at hp
  obtain ⟨hseen, hlive⟩ := List.mem_filter.mp hp
  have hlive := of_decide_eq_true hlive
  obtain ⟨x, hx, hpx⟩ := List.mem_flatMap.mp hseen
  obtain ⟨j, hj⟩ := List.getElem?_of_mem hx
  have hpos : p ∈ entryPos33 x := (List.takeWhile_sublist _).subset hpx
  unfold entryPos33 at hpos
  obtain ⟨k, hk, rfl⟩ := List.mem_map.mp hpos
  have hk7 := List.mem_range.mp hk
  have hjx : cs.getD j 0 = x := by rw [List.getD_eq_getElem?_getD, hj]; rfl
  have hsp : slotPos33 cs (7 * j + k) = 256 * x + 11 + 35 * k := by
    unfold slotPos33
    rw [show (7 * j + k) / 7 = j by omega, show (7 * j + k) % 7 = k by omega, hjx]
  generalize hsl : ((catSeen33 b cs).map (kept33 b)).take i ++ some f :: ((catSeen33 b cs).map (kept33 b)).drop (i + 1) = slots at h8
  have hlast : lastEntry33 m'.bytes (256 * x + 11 + 35 * k) = false := by
    have hall := List.all_takeWhile (l := entryPos33 x) (p := fun p => !lastEntry33 m'.bytes p)
    rw [List.all_eq_true] at hall
    simpa using hall _ hpx
  have hil : (((catSeen33 b cs).map (kept33 b)).take i).length = i := by rw [List.length_take, List.length_map]; omega
  have hslot : slots[i]? = some (some f) := by
    rw [← hsl, List.getElem?_append_right (by omega), hil, Nat.sub_self]; rfl
  rcases Nat.lt_or_ge j ((slots.length + 6) / 7) with hlt | hge
  · rcases Nat.lt_or_ge (7 * j + k) slots.length with hs | hs
    · obtain ⟨y, hy⟩ : ∃ y, slots[7 * j + k]? = some y := ⟨_, List.getElem?_eq_getElem hs⟩
      have hsu := h8.slot _ _ hy
      rw [hsp] at hsu
      by_cases hiu : 7 * j + k = i
      · refine C94_text h8 hslot h5 h6 (Nat.le_refl i) rfl ?_
        rw [← hiu, hsp]
        exact hseen
      · have hold : y ∈ (catSeen33 b cs).map (kept33 b) := by
          have he := hy
          rw [← hsl] at he
          rcases Nat.lt_or_ge (7 * j + k) i with hlt' | hge'
          · rw [List.getElem?_append_left (by omega)] at he
            exact List.mem_of_mem_take (List.mem_of_getElem? he)
          · rw [List.getElem?_append_right (by omega), hil, show 7 * j + k - i = (7 * j + k - i - 1) + 1 by omega, List.getElem?_cons_succ] at he
            exact List.mem_of_mem_drop (List.mem_of_getElem? he)
        obtain ⟨q, hq, hqk⟩ := List.mem_map.mp hold
        rw [← hqk] at hsu
        unfold kept33 at hsu
        by_cases hq255 : byteOf b q = 255
        · rw [if_pos hq255] at hsu
          exact hlive hsu
        · rw [if_neg hq255] at hsu
          obtain ⟨_, hinfo⟩ := hsu
          have hname := congrArg FileInfo33.name hinfo
          exact hnew _ (List.mem_map.mpr ⟨q, List.mem_filter.mpr ⟨hq, by simpa using hq255⟩, rfl⟩) (hname.symm.trans hpn)
    · have hz := h8.zero _ hs (by omega)
      rw [hsp] at hz
      have hg : ∀ a, a < 35 → byteOf m'.bytes (256 * x + 11 + 35 * k + a) = 0 := by
        intro a ha
        have : ((slice m'.bytes (256 * x + 11 + 35 * k) (256 * x + 11 + 35 * k + 35)).getD a 0).toNat = ((List.replicate 35 (0 : UInt8)).getD a 0).toNat := by rw [hz]
        rw [slice_getD (by omega), List.getD_eq_getElem?_getD (l := List.replicate 35 0), List.getElem?_replicate, if_pos ha] at this
        exact this
      unfold lastEntry33 at hlast
      have h00 := hg 0 (by omega)
      rw [Nat.add_zero] at h00
      rw [h00, hg 2 (by omega)] at hlast
      cases hlast
  · have hsame := h8.later j x hge hj
    have hseen' : seenEntries33 m'.bytes x = seenEntries33 b x := by rw [seenEntries33_eq, seenEntries33_eq, hsame]
    have hinfo := fileInfo33_same hk7 hsame
    have hb0 := firstByte33_same hk7 hsame
    refine hnew _ (List.mem_map.mpr ⟨256 * x + 11 + 35 * k, List.mem_filter.mpr ⟨List.mem_flatMap.mpr ⟨x, hx, by rw [← hseen']; exact hpx⟩, ?_⟩, rfl⟩) ?_
    · rw [hb0] at hlive
      simpa using hlive
    · rw [← hinfo, hpn]
      exact rstripWs_idem _

/-! ### when text files can be added -/

theorem catChain_of {b : Bytes} {s cs} (h : Chain33 b s cs) : CatChain33 560 b s cs := by
  induction h with
  | nil => exact .done
  | cons h0 h1 _ ih => exact .next h0 h1 h1 (by rw [← linkOf_sec33]; exact ih)

theorem volume_of_consistent {b cs ds} (c : Consistent33 b cs ds) : Volume33 b cs ∧ sectors33 b = 560 := by
  obtain ⟨cs', v, _⟩ := C77_opens b _ (open33 c)
  have hn : sectors33 b = 560 := by
    unfold sectors33 secByte33
    rw [← getD_sec33 (by omega), ← getD_sec33 (by omega), c.tracks, c.sectors]
    rfl
  have hl : linkOf (sec33 b 272) = pairAt33 b 272 1 := linkOf_sec33 ..
  have := v.chain
  rw [hn, ← hl] at this
  have e : cs' = cs := (this.unique (catChain_of c.cat)).symm
  rw [← e]
  exact ⟨v, hn⟩

/-- **C97, text files, space.** On a consistent volume a text file is added whenever any other file could be; it takes the same space. -/
theorem C97_text_space {b cs ds} (c : Consistent33 b cs ds) {name data : Bytes} (hne : data ≠ []) (ha : Ascii33 name)
    (hs : (mount33 b ds).files.length < 7 * (cs.length - 1)) (hnew : norm33 name ∉ (mount33 b ds).names)
    (hk : dataSecs33 data.length + listSecs33 data.length ≤ (freePool33 b).length) :
    ∃ m', (dos33Driver 'T').write name data (mount33 b ds) = (.ok (), m') ∧ DImg.open m'.bytes = .ok m' ∧ norm33 name ∉ m'.names ∧
      freePool33 m'.bytes = (freePool33 b).drop (dataSecs33 data.length + listSecs33 data.length) := by
  have hidx := getFreeDirent33_lt c hs
  obtain ⟨b', order, tsOrder, map1, map2, w⟩ := writeBody33_ok (ftype := 0) c hne ha (by omega) hidx hk
  have hm := open33 c
  obtain ⟨v, hn⟩ := volume_of_consistent c
  obtain ⟨i, f, hi, _, _, h4, h5, h6, _, h8⟩ := writeBody_packed hm v c.cat272 hn c.catNe (fun x hx hf => (c.free x hf).2.2.2 hx) (by omega) w.body
  simp only at h8
  have h0cs : 0 ∉ cs := fun h => (c.cat.lt 0 h).1 rfl
  have nf := newFile33_spec c hne w
  obtain ⟨hvol, hn'⟩ := h8.volume v hn (by
    intro g hg hgt
    have hold : some g ∈ (catSeen33 b cs).map (kept33 b) := by
      rcases List.mem_append.mp hg with hg | hg
      · exact List.mem_of_mem_take hg
      · rcases List.mem_cons.mp hg with hg | hg
        · injection hg with hg
          rw [hg, h5, h6] at hgt
          simp at hgt
        · exact List.mem_of_mem_drop hg
    obtain ⟨q, hq, hqf⟩ := List.mem_map.mp hold
    unfold kept33 at hqf
    by_cases hq255 : byteOf b q = 255
    · rw [if_pos hq255] at hqf; cases hqf
    · rw [if_neg hq255] at hqf
      injection hqf with hqf
      have hgd := v.good q hq
      rw [hn] at hgd
      rcases hgd with hgd | hgd
      · exact absurd hgd hq255
      · rw [← hqf]
        exact hgd) (w.others 0 (by omega) h0cs (fun h => by
          rw [w.res.all] at h
          have := (c.free 0 (mem_freePool33.mp (List.mem_of_mem_take h))).1
          omega)) (vtocKept_store c.size w.vtoc)
  obtain ⟨mO, hO⟩ := C77_volume hvol
  have hOb := (open33_ok hO).2.1
  have hwr : (dos33Driver 'T').write name data (mount33 b ds) = (.ok (), mO) := by
    show DImg.transaction (DImg.writeBody name 0 data) (mount33 b ds) = _
    unfold DImg.transaction
    simp only
    rw [w.body]
    simp only
    exact getMetadata33_of_open (m2 := { mount33 b ds with bytes := b' }) hO rfl rfl rfl
  have hOO : DImg.open mO.bytes = .ok mO := by rw [hOb]; exact hO
  refine ⟨mO, hwr, hOO, ?_, ?_⟩
  · exact C97_text hm v c.cat272 hn c.catNe (fun x hx hf => (c.free x hf).2.2.2 hx) (by
      intro x hx
      obtain ⟨d, hd, rfl⟩ := List.mem_map.mp hx
      rw [c.names d (List.mem_filter.mp hd).1]
      exact fun h => hnew (h ▸ List.mem_map_of_mem hd)) hwr hOO (by rw [hOb]; exact hvol)
  · rw [hOb]
    exact freePool33_taken (fun s => by rw [nf.free, w.res.all])

/-- on a blank disk: `A` is added as a text file of one byte; the disk shows no file and has two free sectors less -/
example : ∃ m', (dos33Driver 'T').write [0x41] [1] (mount33 blank33 []) = (.ok (), m') ∧ [0x41] ∉ m'.names ∧ (freePool33 m'.bytes).length = 494 := by
  obtain ⟨m', h1, _, h3, h4⟩ := C97_text_space (name := [0x41]) (data := [1]) (template33_consistent blank33_template) (by decide) (by unfold Ascii33; decide) (by decide) (by decide)
    (by rw [template33_pool blank33_template]; decide)
  exact ⟨m', h1, h3, by rw [h4, List.length_drop, template33_pool blank33_template]; rfl⟩

/-- `--filetype A` on a blank disk: listed as `A` -/
example : ∃ m', (dos33Driver 'A').write [0x41] [1] (mount33 blank33 []) = (.ok (), m') ∧
    ∃ ty, ([0x41], ty, .ok (1 :: List.replicate 255 0)) ∈ m'.listing ∧ kindOf33 ty = 'A' := by
  have h := (C10_write_succeeds_iff (name := [0x41]) (data := [1]) (ftype := 2) mounted_blank33 (by decide) (by decide) (by decide)).mpr
    ⟨by decide, by unfold Ascii33; decide, by decide, by rw [mount33_bytes, template33_pool blank33_template]; decide⟩
  generalize hy : DImg.writeFile [0x41] 2 [1] (mount33 blank33 []) = y at h
  obtain ⟨r, m'⟩ := y
  simp only at h
  subst h
  have hw : ∀ m, (dos33Driver 'A').write [0x41] [1] m = DImg.writeFile [0x41] 2 [1] m := fun _ => rfl
  rw [← hw] at hy
  obtain ⟨ty, h1, h2⟩ := C97_listed (c := 'A') (name := [0x41]) (data := [1]) mounted_blank33 (by decide) (by decide) hy
  exact ⟨m', hy, ty, h1, h2⟩

end Atr
