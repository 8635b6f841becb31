import Verif.Spec.Dos33Lists
import Verif.Props.Dos33Frame
import Verif.Props.Dos33Files
import Verif.Props.Dos33WriteAny
/-!
# C114: DOS 3.3 finds the sectors of the files that were added
-/
namespace Atr

theorem listNext33_eq (raw : Bytes) : listNext33 raw = linkOf raw := by
  unfold listNext33 linkOf secOfTS
  omega

/-! ### the lists that are written -/

theorem tsData_getD {g : List Nat} (hg : g.length ≤ 122) (x i : Nat) (h1 : 3 ≤ i) (h2 : i < 12) :
    (splice (tsData g) 1 (tsBytes x)).getD i 0 = 0 := by
  have hl := length_tsData hg
  have hb := length_tsBytes g
  have ht : (tsBytes x).length = 2 := rfl
  rw [List.getD_eq_getElem?_getD, getElem?_splice _ _ _ _ (by rw [hl, ht]; omega), if_neg (by omega), if_neg (by rw [ht]; omega)]
  unfold tsData
  rw [getElem?_splice _ _ _ _ (by rw [hb, List.length_replicate]; omega), if_pos (by omega), List.getElem?_replicate, if_pos (by omega)]
  rfl

theorem tsPairs_getElem? {b : Bytes} (hb : b.length = 143360) {t : Nat} (ht : t < 560) {k : Nat} (hk : k < 122) :
    (tsPairsOf (sec33 b t))[k]? = some (listPair33 (sec33 b t) k) := by
  rw [listPairs33_eq hb ht]
  unfold listPairs33
  rw [List.getElem?_map, List.getElem?_range hk, Option.map_some]
  unfold pairAt33 listPair33 secByte33
  rw [getD_sec33 (by omega), getD_sec33 (by omega), show 12 + 2 * k + 1 = 13 + 2 * k by omega]

theorem flatMap_block {f : Nat → Bytes} : ∀ (l : List Nat), (∀ x ∈ l, (f x).length = 256) → ∀ (n s : Nat), l[n]? = some s →
    slice (l.flatMap f) (256 * n) (256 * n + 256) = f s := by
  intro l
  induction l with
  | nil => intro _ n s h; cases h
  | cons x l ih =>
    intro h n s hn
    have hx := h x (by simp)
    rw [List.flatMap_cons]
    cases n with
    | zero =>
      injection hn with hn
      subst hn
      unfold slice
      rw [List.take_append_of_le_length (by omega), List.take_of_length_le (by omega)]
      rfl
    | succ n =>
      have := ih (fun y hy => h y (by simp [hy])) n s hn
      rw [← this]
      generalize l.flatMap f = r
      generalize f x = q at hx
      unfold slice
      rw [List.take_append, List.drop_append, List.take_of_length_le (by omega), List.drop_of_length_le (by omega), List.nil_append, hx,
        show 256 * (n + 1) - 256 = 256 * n by omega, show 256 * (n + 1) + 256 - 256 = 256 * n + 256 by omega]

/-- what is known about the file after it was added -/
theorem added33 {m m' : DImg} {cs ds} {name data : Bytes} {ftype : Nat} (hm : Mounted33 m cs ds) (ht : ftype < 128) (ht0 : ftype ≠ 0)
    (hnew : norm33 name ∉ m.names) (hw : DImg.writeFile name ftype data m = (.ok (), m')) :
    ∃ d ts map, d ∈ m'.files ∧ d.filename = norm33 name ∧ FileSecs m'.bytes d ts map ∧ map.length = dataSecs33 data.length ∧
      map.flatMap (sec33 m'.bytes) = padded33 data ∧ m'.bytes.length = 143360 ∧ (∀ x ∈ map ++ ts, 0 < x ∧ x < 560) ∧
      (chunks 122 map).length = ts.length ∧
      ∀ (j n : Nat) (g : List Nat), (chunks 122 map)[j]? = some g → ts[j]? = some n →
        ∃ x, sec33 m'.bytes n = splice (tsData g) 1 (tsBytes x) := by
  obtain ⟨c, e⟩ := mounted33_iff.mp hm
  generalize m.bytes = b at c e
  subst e
  obtain ⟨hne, h2, h3, h4⟩ := (write33_ok_iff c ht ht0 hnew).mp (by rw [hw])
  have hidx := getFreeDirent33_lt c h3
  obtain ⟨b', order, tsOrder, map1, map2, w⟩ := writeBody33_ok c hne h2 ht hidx h4
  have c' := written33_consistent c hne ht0 hidx hnew w
  have hw' : DImg.writeFile name ftype data (mount33 b ds) = _ := transaction33_ok w.body c'
  rw [hw] at hw'
  injection hw' with _ hw'
  subst hw'
  have nf := newFile33_spec c hne w
  obtain ⟨_, uall⟩ := w.res.user c
  have hget := getElem?_after33 ds name (ftype := ftype) nf.first1 nf.first2 nf.n
  refine ⟨_, tsOrder, order, ?_, rfl, nf.secs, w.res.len1, w.contents, w.size, fun x hx => ⟨by have := (uall x hx).1.1; omega, (uall x hx).1.2.1⟩, ?_, w.lists⟩
  · refine List.mem_filter.mpr ⟨List.mem_of_getElem? (i := getFreeDirent33 ds) ?_, rfl⟩
    rw [hget, if_pos rfl]
  · rw [length_chunks 122 (by omega), w.res.len1, w.res.len2]
    rfl

theorem dataSecs_122 {n : Nat} : dataSecs33 n ≤ 122 ↔ n ≤ 31232 := by
  unfold dataSecs33
  omega

/-- lists that all begin with sector 0 of the file have nothing from sector 122 on -/
theorem no_later {b : Bytes} {t n s : Nat} (h : DosFinds33 b t n s) : ∀ {ts : List Nat}, Chain33 b t ts → t ≠ 0 →
    (∀ x ∈ ts, listFirst33 (sec33 b x) = 0) → n < 122 := by
  induction h with
  | @here t n h1 h2 =>
    intro ts hc ht h0
    cases hc with
    | nil => exact absurd rfl ht
    | cons _ _ _ =>
      rw [h0 t (by simp)] at h2
      omega
  | @next t n s _ hl _ ih =>
    intro ts hc ht h0
    cases hc with
    | nil => exact absurd rfl ht
    | @cons _ cs _ _ h2 =>
      rw [← listNext33_eq] at h2
      exact ih h2 hl (fun x hx => h0 x (by simp [hx]))

/-- **C114 (refuted).** Of a file with more than 122 sectors (31232 bytes), DOS 3.3 finds the first 122 only, although the
program reads it back: the lists after the first do not tell which sectors of the file they are for. -/
theorem C114_refuted {m m' : DImg} {cs ds} {name data : Bytes} {ftype : Nat} (hm : Mounted33 m cs ds) (hc : norm33 name = name)
    (ht : ftype < 128) (ht0 : ftype ≠ 0) (hnew : name ∉ m.names) (hw : DImg.writeFile name ftype data m = (.ok (), m'))
    (hlong : 31232 < data.length) :
    m'.findFile name = .ok (padded33 data) ∧
    ∃ d ∈ m'.files, d.filename = name ∧ ∀ n s, 122 ≤ n → ¬ DosFinds33 m'.bytes (secOfTS d.track d.sector) n s := by
  refine ⟨(C10_write_then_read hm hc ht ht0 hnew hw).1, ?_⟩
  obtain ⟨d, ts, map, h1, h2, h3, h4, h5, h6, h7, h8, h9⟩ := added33 hm ht ht0 (by rw [hc]; exact hnew) hw
  refine ⟨d, h1, h2.trans hc, ?_⟩
  intro n s hn hf
  have hne : secOfTS d.track d.sector ≠ 0 := by
    intro h0
    have hch := h3.chain
    rw [h0] at hch
    cases hch with
    | nil =>
      have hl : (chunks 122 map).length = 0 := h8
      rw [length_chunks 122 (by omega), h4] at hl
      have := (dataSecs_122 (n := data.length))
      omega
    | cons hx _ _ => exact hx rfl
  have := no_later hf h3.chain hne (by
    intro x hx
    obtain ⟨j, hj⟩ := List.getElem?_of_mem hx
    have hjl : j < (chunks 122 map).length := by rw [h8]; exact (List.getElem?_eq_some_iff.mp hj).1
    have hg := List.getElem?_eq_getElem hjl
    obtain ⟨y, hy⟩ := h9 j x _ hg hj
    have hl := (mem_chunks_length 122 (by omega) map _ (List.mem_of_getElem? hg)).2
    unfold listFirst33
    rw [hy, tsData_getD hl y 5 (by omega) (by omega), tsData_getD hl y 6 (by omega) (by omega)]
    rfl)
  omega

/-- **C114, what holds.** The first 122 sectors of every file that is added are found, and hold its data: all of it, if it has no
more than 31232 bytes. -/
theorem C114_partial {m m' : DImg} {cs ds} {name data : Bytes} {ftype : Nat} (hm : Mounted33 m cs ds) (hc : norm33 name = name)
    (ht : ftype < 128) (ht0 : ftype ≠ 0) (hnew : name ∉ m.names) (hw : DImg.writeFile name ftype data m = (.ok (), m')) :
    ∃ d ∈ m'.files, d.filename = name ∧ ∀ n, n < 122 → 256 * n < data.length →
      ∃ s, s ≠ 0 ∧ DosFinds33 m'.bytes (secOfTS d.track d.sector) n s ∧ sec33 m'.bytes s = slice (padded33 data) (256 * n) (256 * n + 256) := by
  obtain ⟨d, ts, map, h1, h2, h3, h4, h5, h6, h7, h8, h9⟩ := added33 hm ht ht0 (by rw [hc]; exact hnew) hw
  refine ⟨d, h1, h2.trans hc, ?_⟩
  intro n hn hd
  have hnl : n < map.length := by rw [h4]; unfold dataSecs33; omega
  have hmap := List.getElem?_eq_getElem hnl
  have hcl : 0 < (chunks 122 map).length := by rw [length_chunks 122 (by omega)]; omega
  have hts : 0 < ts.length := by rw [← h8]; exact hcl
  have hg := List.getElem?_eq_getElem hcl
  have ht' := List.getElem?_eq_getElem hts
  obtain ⟨x, hx⟩ := h9 0 _ _ hg ht'
  have hgl := (mem_chunks_length 122 (by omega) map _ (List.mem_of_getElem? hg)).2
  have hfirst : secOfTS d.track d.sector = ts[0] := by
    have hh := h3.chain.headD
    rw [hh, List.headD_eq_head?_getD, List.head?_eq_getElem?, ht']
    rfl
  have h0 : listFirst33 (sec33 m'.bytes ts[0]) = 0 := by
    unfold listFirst33
    rw [hx, tsData_getD hgl x 5 (by omega) (by omega), tsData_getD hgl x 6 (by omega) (by omega)]
    rfl
  have hmlt : ∀ y ∈ map, y < 560 := fun y hy => (h7 y (by simp [hy])).2
  have hpair : listPair33 (sec33 m'.bytes ts[0]) n = map[n] := by
    have e1 := tsPairs_getElem? h6 (h7 ts[0] (by simp)).2 hn
    have e2 := tsPairs_tsData hgl (fun y hy => by
      have hy' : y ∈ map := by
        rw [← chunks_flatten 122 (by omega) map]
        exact List.mem_flatten.mpr ⟨_, List.mem_of_getElem? hg, hy⟩
      have := hmlt y hy'; omega) x
    have e3 := getElem?_chunks 122 (by omega) map 0 _ hg n
    rw [if_pos hn, Nat.mul_zero, Nat.zero_add, hmap] at e3
    rw [hx, e2, List.getElem?_append_left (List.getElem?_eq_some_iff.mp e3).1, e3] at e1
    injection e1 with e1
    rw [hx]
    exact e1.symm
  refine ⟨map[n], Nat.pos_iff_ne_zero.mp (h7 _ (by simp)).1, ?_, ?_⟩
  · rw [hfirst, ← hpair]
    have := DosFinds33.here (b := m'.bytes) (t := ts[0]) (n := n) (by omega) (by omega)
    rwa [h0, Nat.sub_zero] at this
  · rw [← h5]
    exact (flatMap_block map (fun y hy => length_sec33 h6 (hmlt y hy)) n _ hmap).symm

theorem finds_agree {b b' : Bytes} {t n s : Nat} (h : DosFinds33 b t n s) : ∀ {ts : List Nat}, Chain33 b t ts → t ≠ 0 →
    (∀ x ∈ ts, sec33 b' x = sec33 b x) → DosFinds33 b' t n s := by
  induction h with
  | @here t n h1 h2 =>
    intro ts hc ht h0
    cases hc with
    | nil => exact absurd rfl ht
    | cons _ _ _ =>
      have e := h0 t (by simp)
      rw [← e] at h1 h2 ⊢
      exact .here h1 h2
  | @next t n s h1 hl _ ih =>
    intro ts hc ht h0
    cases hc with
    | nil => exact absurd rfl ht
    | @cons _ cs _ _ h2 =>
      rw [← listNext33_eq] at h2
      have hn := ih h2 hl (fun x hx => h0 x (by simp [hx]))
      have e := h0 t (by simp)
      rw [← e] at h1 hl hn
      exact .next h1 hl hn

/-- **C114, the other files.** What DOS 3.3 finds for a file that is on the disk is what it finds after any operation, whatever its
outcome; the sectors of the file keep their contents. -/
theorem C114_kept {m m' : DImg} {cs ds} {op : Op33} {r} (hm : Mounted33 m cs ds) (h : op.run m = (r, m')) {d : DDirent} (hd : d ∈ m.files) :
    (∀ n s, DosFinds33 m'.bytes (secOfTS d.track d.sector) n s ↔ DosFinds33 m.bytes (secOfTS d.track d.sector) n s) ∧
    ∃ ts map, FileSecs m.bytes d ts map ∧ ∀ x ∈ map, sec33 m'.bytes x = sec33 m.bytes x := by
  obtain ⟨c, e⟩ := mounted33_iff.mp hm
  have k := (C72_sectors_in_use c.size h).2
  have hfd : m.firstDir = linkOf (sec33 m.bytes 272) := by rw [e]; rfl
  have hd' : d ∈ ds.filter (fun d => !d.deleted) := by rw [e] at hd; exact hd
  obtain ⟨h1, h2⟩ := List.mem_filter.mp hd'
  obtain ⟨ts, map, f1, f2, f3, f4⟩ := c.files d h1 (by simpa using h2)
  have hk : ∀ x ∈ ts ++ map, sec33 m'.bytes x = sec33 m.bytes x := by
    intro x hx
    obtain ⟨⟨_, _, u3, u4⟩, u5⟩ := f4 x hx
    exact k x u3 u5 (fun hl => u4 (chain33_linked c.cat c.catNe x (by rw [← hfd]; exact hl)))
  have hkt : ∀ x ∈ ts, sec33 m'.bytes x = sec33 m.bytes x := fun x hx => hk x (by simp [hx])
  have hne : secOfTS d.track d.sector ≠ 0 := by
    intro h0
    have hch := f1.chain
    rw [h0] at hch
    cases hch with
    | nil => exact f2 (by rw [f1.map]; simp)
    | cons hx _ _ => exact hx rfl
  have hc' : Chain33 m'.bytes (secOfTS d.track d.sector) ts := f1.chain.frame (fun x hx => by rw [hkt x hx])
  exact ⟨fun n s => ⟨fun hf => finds_agree hf hc' hne (fun x hx => (hkt x hx).symm), fun hf => finds_agree hf f1.chain hne hkt⟩,
    ts, map, f1, fun x hx => hk x (by simp [hx])⟩

/-! ### concrete cases -/

/-- one file of `len` bytes on the blank volume -/
theorem blank_write33 (len : Nat) (hl : len ≠ 0) (h : dataSecs33 len + listSecs33 len ≤ 496) :
    ∃ m', DImg.writeFile [0x41] 4 (List.replicate len 7) (mount33 blank33 []) = (.ok (), m') := by
  have hlen : (List.replicate len (7 : UInt8)).length = len := List.length_replicate
  have hok := (C10_write_succeeds_iff (name := [0x41]) (data := List.replicate len 7) (ftype := 4) mounted_blank33 (by omega) (by omega)
    (fun hx => nomatch hx)).mpr ⟨fun h => hl (by rw [h] at hlen; exact hlen.symm), by unfold Ascii33; decide, by decide, by
      rw [hlen, mount33_bytes, template33_pool blank33_template]; exact h⟩
  generalize DImg.writeFile [0x41] 4 (List.replicate len 7) (mount33 blank33 []) = q at hok ⊢
  obtain ⟨r, m'⟩ := q
  exact ⟨m', by rw [show r = .ok () from hok]⟩

/-- a file of 40000 bytes on the blank volume has 157 sectors.  Sector 121 is found, sector 122 is not. -/
example : ∃ m', DImg.writeFile [0x41] 4 (List.replicate 40000 7) (mount33 blank33 []) = (.ok (), m') ∧
    (∃ d ∈ m'.files, d.filename = [0x41] ∧ ∀ s, ¬ DosFinds33 m'.bytes (secOfTS d.track d.sector) 122 s) ∧
    ∃ d ∈ m'.files, d.filename = [0x41] ∧ ∃ s, DosFinds33 m'.bytes (secOfTS d.track d.sector) 121 s := by
  obtain ⟨m', hw⟩ := blank_write33 40000 (by omega) (by decide)
  have hlen : (List.replicate 40000 (7 : UInt8)).length = 40000 := List.length_replicate
  refine ⟨m', hw, ?_, ?_⟩
  · obtain ⟨_, d, h1, h2, h3⟩ := C114_refuted mounted_blank33 (by decide) (by omega) (by omega) (fun hx => nomatch hx) hw (by rw [hlen]; omega)
    exact ⟨d, h1, h2, fun s => h3 122 s (by omega)⟩
  · obtain ⟨d, h1, h2, h3⟩ := C114_partial mounted_blank33 (by decide) (by omega) (by omega) (fun hx => nomatch hx) hw
    obtain ⟨s, _, h4, _⟩ := h3 121 (by omega) (by rw [hlen]; omega)
    exact ⟨d, h1, h2, s, h4⟩

/-- a file of 300 bytes: its second sector holds 44 bytes of the data and zeros -/
example : ∃ m', DImg.writeFile [0x41] 4 (List.replicate 300 7) (mount33 blank33 []) = (.ok (), m') ∧
    ∃ d ∈ m'.files, d.filename = [0x41] ∧ ∃ s, DosFinds33 m'.bytes (secOfTS d.track d.sector) 1 s ∧
      sec33 m'.bytes s = List.replicate 44 7 ++ List.replicate 212 0 := by
  obtain ⟨m', hw⟩ := blank_write33 300 (by omega) (by decide)
  have hlen : (List.replicate 300 (7 : UInt8)).length = 300 := List.length_replicate
  refine ⟨m', hw, ?_⟩
  obtain ⟨d, h1, h2, h3⟩ := C114_partial mounted_blank33 (by decide) (by omega) (by omega) (fun hx => nomatch hx) hw
  obtain ⟨s, _, h4, h5⟩ := h3 1 (by omega) (by rw [hlen]; omega)
  exact ⟨d, h1, h2, s, h4, h5.trans (by decide +kernel)⟩

/-- the file is still found when the next one did not fit -/
example : ∃ m' m'' e, DImg.writeFile [0x41] 4 (List.replicate 300 7) (mount33 blank33 []) = (.ok (), m') ∧
    DImg.writeFile [0x42] 4 [] m' = (e, m'') ∧
    ∃ d ∈ m'.files, ∃ s, DosFinds33 m''.bytes (secOfTS d.track d.sector) 1 s := by
  obtain ⟨m', hw⟩ := blank_write33 300 (by omega) (by decide)
  have hlen : (List.replicate 300 (7 : UInt8)).length = 300 := List.length_replicate
  obtain ⟨d, h1, h2, h3⟩ := C114_partial mounted_blank33 (by decide) (by omega) (by omega) (fun hx => nomatch hx) hw
  obtain ⟨s, _, h4, _⟩ := h3 1 (by omega) (by rw [hlen]; omega)
  obtain ⟨ds', _, _, k1, _⟩ := write33_ok mounted_blank33 (by omega) (by omega) (fun hx => nomatch hx) hw
  refine ⟨m', (DImg.writeFile [0x42] 4 [] m').2, (DImg.writeFile [0x42] 4 [] m').1, hw, rfl, d, h1, s, ?_⟩
  exact ((C114_kept (op := .write [0x42] 4 []) k1 (Prod.eta _).symm h1).1 1 s).mpr h4

end Atr
