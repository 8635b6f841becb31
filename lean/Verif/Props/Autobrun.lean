import Verif.Spec.Autobrun
import Verif.Props.BRun
import Verif.Props.Dos33Frame
import Verif.Props.Dos33Cli
/-!
# C120: programs for `dos33autobrun.dsk`

The README describes how to make a disk that starts a program by itself: make a disk from the template `dos33autobrun` and assemble
the program to the file `AUTOBRUN`, again and again while the program is developed, and perhaps add and remove other files.
-/
namespace Atr

/-! ### the template -/

theorem autobrun_cats : autobrunCats = catBlank33 := rfl

theorem autobrun_free_bits : ∀ s, s < 800 → (256 * (autobrunVtoc.getD (0x38 + 4 * (s / 16)) 0).toNat +
    (autobrunVtoc.getD (0x39 + 4 * (s / 16)) 0).toNat).testBit (s % 16) = decide ((50 ≤ s ∧ s < 272) ∨ (288 ≤ s ∧ s < 560)) := by
  decide +kernel

theorem autobrun_free {b : Bytes} (t : Autobrun33 b) (s : Nat) : IsFree33 b s ↔ (50 ≤ s ∧ s < 272) ∨ (288 ≤ s ∧ s < 560) := by
  unfold IsFree33
  rw [t.vtoc]
  by_cases hs : s < 800
  · rw [autobrun_free_bits s hs]; simp [hs]
  · constructor
    · intro h; exact absurd h.1 hs
    · omega

theorem autobrun_pool {b : Bytes} (t : Autobrun33 b) : (freePool33 b).length = 494 := by
  have : freePool33 b = (List.range 800).filter fun s => decide ((50 ≤ s ∧ s < 272) ∨ (288 ≤ s ∧ s < 560)) := by
    unfold freePool33
    exact List.filter_congr fun s _ => decide_eq_decide.mpr (autobrun_free t s)
  rw [this]
  decide +kernel

/-- the entry of `HELLO` as the program sees it -/
def helloDirent : DDirent := { ftype := 2, track := 3, sector := 1, filename := helloName, numSectors := 2 }
/-- that of `GAME` -/
def gameDirent : DDirent :=
  { fileNum := 1, deleted := true, ftype := 0x7f, locked := true, track := 8, sector := 1, filename := [0x47, 0x41, 0x4d, 0x45], numSectors := 0x50 }

theorem autobrun_tail {b : Bytes} (t : Autobrun33 b) : ∀ s ∈ catBlank33.drop 1, ∃ n, n < 560 ∧ sec33 b s = emptyCat33 n ∧ n = (if s = 273 then 0 else s - 1) := by
  intro s hs
  have h : ∀ s ∈ catBlank33.drop 1, 273 ≤ s ∧ s < 287 := by decide
  obtain ⟨h1, h2⟩ := h s hs
  by_cases h3 : s = 273
  · subst h3
    refine ⟨0, by omega, ?_, rfl⟩
    rw [t.last]
    decide +kernel
  · refine ⟨s - 1, by omega, ?_, by rw [if_neg h3]⟩
    rw [t.cat s (by omega) h2]
    unfold emptyCat33 tsBytes
    have e1 : (s - 1) / 16 = 17 := by omega
    have e2 : (s - 1) % 16 = s - 273 := by omega
    rw [e1, e2]
    rfl

theorem autobrun_raw {b : Bytes} (t : Autobrun33 b) : ∃ es, catRaw b catBlank33 = helloEntry :: gameEntry :: es ∧ ∀ e ∈ es, UnusedSlot e := by
  have h : catRaw b catBlank33 = catEntries (sec33 b 287) ++ catRaw b (catBlank33.drop 1) := rfl
  have h1 : catEntries autobrunCat = helloEntry :: gameEntry :: List.replicate 5 (List.replicate 35 0) := by decide +kernel
  rw [h, t.first, h1]
  refine ⟨_, rfl, fun e he => ?_⟩
  rcases List.mem_append.mp he with he | he
  · rw [(List.mem_replicate.mp he).2]
    exact unused_zero
  · obtain ⟨s, hs, he⟩ := List.mem_flatMap.mp he
    obtain ⟨n, _, hn, _⟩ := autobrun_tail t s hs
    rw [hn] at he
    exact emptyCat33_entries _ e he

theorem hello_secs {b : Bytes} {d : DDirent} {ts map : List Nat} (hl : sec33 b 49 = helloList) (hd : secOfTS d.track d.sector = 49)
    (h : FileSecs b d ts map) (hne : map ≠ []) : ts = [49] ∧ 48 ∈ map := by
  have hts : ts = [49] := by
    have hc := h.chain
    rw [hd] at hc
    refine hc.unique (.cons (by omega) (by omega) ?_)
    have : linkOf (sec33 b 49) = 0 := by rw [hl]; decide +kernel
    rw [this]
    exact .nil
  refine ⟨hts, ?_⟩
  have hm := h.map
  rw [hts] at hm
  have hp : ∃ r, tsPairsOf helloList = 48 :: r := ⟨List.replicate 121 0, by decide +kernel⟩
  obtain ⟨r, hr⟩ := hp
  rw [List.flatMap_cons, hl, hr, List.flatMap_nil, List.append_nil] at hm
  rw [hm]
  generalize d.numSectors - [49].length = k at hm
  cases k with
  | zero => exact absurd hm hne
  | succ k => exact List.mem_cons_self ..

/-- **C120, the template.** A disk like the template is consistent. -/
theorem autobrun_consistent {b : Bytes} (t : Autobrun33 b) : Consistent33 b catBlank33 [helloDirent, gameDirent] := by
  obtain ⟨es, h1, h2⟩ := autobrun_raw t
  have hdir : scanCatSec 560 0 (catRaw b catBlank33) = [helloDirent, gameDirent] := by
    rw [h1]
    have e1 : DDirent.parse 560 0 helloEntry = helloDirent := by decide +kernel
    have e2 : DDirent.parse 560 1 gameEntry = gameDirent := by decide +kernel
    show scanCatSec 560 0 (helloEntry :: gameEntry :: es) = _
    unfold scanCatSec
    simp only [e1]
    rw [if_neg (by decide)]
    unfold scanCatSec
    simp only [Nat.zero_add, e2]
    rw [if_neg (by decide), scanCat_unused es 2 h2]
  have hfs : FileSecs b helloDirent [49] [48] := by
    have hl : linkOf (sec33 b 49) = 0 := by rw [t.list]; decide +kernel
    refine ⟨.cons (by decide) (by decide) ?_, ?_⟩
    · rw [show secOfTS helloDirent.track helloDirent.sector = 49 by decide, hl]
      exact .nil
    · rw [List.flatMap_cons, t.list, List.flatMap_nil]
      decide +kernel
  refine { size := t.size, boot := t.boot, tracks := ?_, sectors := ?_, pairs := ?_, vtoc := ?_, cat := ?_, cat272 := by decide, catNe := by decide,
           dir := hdir, term := ?_, room := by decide, sane := by decide, noText := by decide, names := by decide +kernel
           files := ?_, disjoint := ?_, free := ?_, first := ?_ }
  · rw [t.vtoc]; decide +kernel
  · rw [t.vtoc]; decide +kernel
  · rw [t.vtoc]; decide +kernel
  · rw [t.vtoc]; decide +kernel
  · have : linkOf (sec33 b 272) = 287 := by rw [t.vtoc]; decide +kernel
    rw [this]
    refine chain_of_links catBlank33 (by decide) ?_
    intro j n hj
    cases j with
    | zero =>
      cases hj
      rw [t.first]
      decide +kernel
    | succ j =>
      have hm : n ∈ catBlank33.drop 1 := List.mem_of_getElem? (i := j) (by rw [List.getElem?_drop, Nat.add_comm]; exact hj)
      obtain ⟨k, hk, hn, e⟩ := autobrun_tail t n hm
      rw [hn, emptyCat33_link (by omega), e]
      have hj15 : j + 1 < 15 := (List.getElem?_eq_some_iff.mp hj).1
      have hnext : ∀ i, i < 15 → catBlank33[i]? = some (287 - i) ∧ catBlank33.getD (i + 1) 0 = (if 287 - i = 273 then 0 else 287 - i - 1) := by decide
      obtain ⟨g1, g2⟩ := hnext (j + 1) hj15
      rw [hj] at g1
      injection g1 with g1
      rw [g2, g1]
  · intro e he
    rw [h1] at he
    exact h2 e he
  · intro d hd hl
    rcases List.mem_cons.mp hd with rfl | hd
    · refine ⟨[49], [48], hfs, by decide, by decide, fun x hx => ?_⟩
      have hx : x = 49 ∨ x = 48 := by simpa using hx
      refine ⟨?_, fun hf => ?_⟩
      · rcases hx with rfl | rfl <;> exact ⟨by omega, by omega, by omega, by decide⟩
      · have := (autobrun_free t x).mp hf
        omega
    · cases List.mem_singleton.mp hd
      cases hl
  · intro i j d e hi hj hij h3 h4
    exfalso
    have hz : ∀ (i : Nat) (d : DDirent), [helloDirent, gameDirent][i]? = some d → d.deleted = false → i = 0 := by
      intro i d hi hd
      match i with
      | 0 => rfl
      | 1 => cases hi; cases hd
      | i + 2 => cases hi
    exact hij ((hz i d hi h3).trans (hz j e hj h4).symm)
  · intro s hs
    have := (autobrun_free t s).mp hs
    refine ⟨by omega, by omega, by omega, ?_⟩
    intro hc
    have : ∀ x ∈ catBlank33, 273 ≤ x ∧ x ≤ 287 := by decide
    have := this s hc
    omega
  · intro i j d e hi hj hd hji
    match i with
    | 0 => omega
    | 1 => cases hi; cases hd
    | i + 2 => cases hi

theorem autobrun_sys {b : Bytes} (t : Autobrun33 b) {s : Nat} (hs : s < 48) : SysSec33 b catBlank33 [helloDirent, gameDirent] s := by
  refine ⟨by omega, fun h => ?_, fun h => ?_, fun d hd hl ts map hf hm => ?_⟩
  · have : ∀ x ∈ catBlank33, 48 ≤ x := by decide
    have := this s h
    omega
  · have := (autobrun_free t s).mp h
    omega
  · obtain ⟨ts', map', g1, g2, g3, g4⟩ := (autobrun_consistent t).files d hd hl
    obtain ⟨rfl, rfl⟩ := hf.unique g1
    have hd49 : secOfTS d.track d.sector = 49 := by
      rcases List.mem_cons.mp hd with rfl | hd
      · decide
      · cases List.mem_singleton.mp hd; cases hl
    have hd2 : d.numSectors = 2 := by
      rcases List.mem_cons.mp hd with rfl | hd
      · rfl
      · cases List.mem_singleton.mp hd; cases hl
    obtain ⟨e1, e2⟩ := hello_secs t.list hd49 hf g2
    have hl1 : map.length ≤ 1 := by
      rw [hf.map, List.length_take, hd2, e1]
      show min 1 _ ≤ 1
      omega
    have hm48 : map = [48] := by
      match map, e2, hl1 with
      | [x], e2, _ => rw [List.mem_singleton.mp e2]
      | _ :: _ :: _, _, h => simp at h
    rw [e1, hm48] at hm
    have : s = 49 ∨ s = 48 := by simpa using hm
    omega

theorem autobrun_plain {b : Bytes} (t : Autobrun33 b) : PlainDisk33 b catBlank33 2 := by
  have h287 : ∀ k, k < 256 → byteOf b (256 * 287 + k) = (autobrunCat.getD k 0).toNat := by
    intro k hk
    unfold byteOf
    rw [← getD_sec33 hk, t.first]
  have hslot : ∀ i, i < 7 → slotPos33 catBlank33 i = 256 * 287 + (11 + 35 * i) := by decide
  have hother : ∀ t', 7 ≤ t' → t' < 105 → ∀ k, k < 35 → byteOf b (slotPos33 catBlank33 t' + k) = 0 := by
    intro t' h1 h2 k hk
    have hl : t' / 7 < 15 := by omega
    have hm : catBlank33.getD (t' / 7) 0 ∈ catBlank33.drop 1 := by
      have : ∀ i, i < 15 → 1 ≤ i → catBlank33.getD i 0 ∈ catBlank33.drop 1 := by decide
      exact this _ hl (by omega)
    obtain ⟨n, _, hn, _⟩ := autobrun_tail t _ hm
    unfold slotPos33 byteOf
    rw [show 256 * catBlank33.getD (t' / 7) 0 + 11 + 35 * (t' % 7) + k = 256 * catBlank33.getD (t' / 7) 0 + (11 + 35 * (t' % 7) + k) by omega,
      ← getD_sec33 (by omega), hn]
    unfold emptyCat33
    rw [List.getD_eq_getElem?_getD, List.getElem?_append_right (by simp only [tsBytes, List.length_append, List.length_cons, List.length_nil]; omega),
      List.getElem?_replicate]
    split <;> rfl
  have pc : PlainCat33 b catBlank33 2 := by
    refine ⟨by decide, fun i hi => ?_, fun i hi => ?_, fun i h1 h2 => ?_⟩
    · rw [hslot i (by omega), h287 _ (by omega)]
      have : ∀ i, i < 2 → (autobrunCat.getD (11 + 35 * i) 0).toNat ≠ 0 := by decide +kernel
      exact this i hi
    · rw [hslot i (by omega), h287 _ (by omega), show 256 * 287 + (11 + 35 * i) + 2 = 256 * 287 + (11 + 35 * i + 2) by omega, h287 _ (by omega)]
      have : ∀ i, i < 2 → (autobrunCat.getD (11 + 35 * i) 0).toNat = 255 ∨ (autobrunCat.getD (11 + 35 * i + 2) 0).toNat ≠ 0 := by decide +kernel
      exact this i hi
    · rcases Nat.lt_or_ge i 7 with h | h
      · rw [hslot i h, h287 _ (by omega), show 256 * 287 + (11 + 35 * i) + 2 = 256 * 287 + (11 + 35 * i + 2) by omega, h287 _ (by omega)]
        have : ∀ i, i < 7 → 2 ≤ i → (autobrunCat.getD (11 + 35 * i) 0).toNat = 0 ∧ (autobrunCat.getD (11 + 35 * i + 2) 0).toNat = 0 := by decide +kernel
        exact this i h h1
      · exact ⟨hother i h h2 0 (by omega), hother i h h2 2 (by omega)⟩
  have hseen : catSeen33 b catBlank33 = [256 * 287 + 11, 256 * 287 + 46] := by
    rw [pc.seen]
    decide
  have hgame : byteOf b (256 * 287 + 46) = 255 := by
    rw [h287 46 (by omega)]
    decide +kernel
  refine ⟨pc, fun p hp hd => ?_, fun p hp hd => ?_⟩
  · rw [hseen] at hp
    rcases List.mem_cons.mp hp with rfl | hp
    · refine ⟨helloName, ?_, by decide, by decide, by decide⟩
      have h := slice_slice b (256 * 287) (256 * 287 + 256) 14 44
      have e : slice b (256 * 287) (256 * 287 + 256) = autobrunCat := t.first
      rw [e] at h
      unfold nameField33
      rw [show min (256 * 287 + 256) (256 * 287 + 44) = 256 * 287 + 11 + 33 by omega, show 256 * 287 + 14 = 256 * 287 + 11 + 3 by omega] at h
      rw [← h]
      decide +kernel
    · rw [List.mem_singleton.mp hp] at hd
      exact absurd hgame hd
  · rw [hseen] at hp
    rcases List.mem_cons.mp hp with rfl | hp
    · rw [show 256 * 287 + 11 + 2 = 256 * 287 + 13 by omega, h287 13 (by omega)]
      decide +kernel
    · rw [List.mem_singleton.mp hp] at hd
      exact absurd hgame hd

/-! ### names -/

theorem dosName33_inj {x y : Bytes} (hx : norm33 x = x) (hy : norm33 y = y) (ax : ∀ c ∈ x, c < 0x80) (ay : ∀ c ∈ y, c < 0x80)
    (h : dosName33 x = dosName33 y) : x = y := by
  have len : ∀ {z : Bytes}, norm33 z = z → z.length ≤ 29 ∧ rstripWs z = z := by
    intro z hz
    constructor
    · rw [← hz]
      unfold norm33
      exact Nat.le_trans (length_rstripWs _) (by rw [List.length_take]; omega)
    · rw [← hz]
      exact rstripWs_idem _
  have key : ∀ {z : Bytes}, norm33 z = z → (∀ c ∈ z, c < 0x80) → (fileInfo33 ([0, 0, 0] ++ dosName33 z) 0).name = z := by
    intro z hz az
    refine plain_info (p := 0) ?_ (len hz).1 az (len hz).2
    unfold nameField33 slice
    have hl := dosName33_length (n := z) (by have := (len hz).1; omega)
    rw [List.take_of_length_le (by rw [List.length_append, hl]; decide)]
    rfl
  rw [← key hx ax, h, key hy ay]

/-! ### the invariant -/

/-- the opened disk has `HELLO` where it was on `b0`, and the sectors of DOS are what they were -/
structure HelloIn (b0 : Bytes) (m : DImg) (ds : List DDirent) (n : Nat) : Prop where
  mounted : Mounted33 m catBlank33 ds
  plain : PlainDisk33 m.bytes catBlank33 n
  file : ∃ d ∈ m.files, d.filename = helloName ∧ d.ftype = 2 ∧ secOfTS d.track d.sector = 49
  sys : ∀ s, s < 48 → SysSec33 m.bytes catBlank33 ds s
  same : ∀ s, s < 50 → sec33 m.bytes s = sec33 b0 s

theorem HelloIn.lookup {b0 : Bytes} {m : DImg} {ds n} (h : HelloIn b0 m ds n) : dosLookup33 m.bytes catBlank33 (dosName33 helloName) = some 49 := by
  obtain ⟨d, h1, h2, _, h3⟩ := h.file
  obtain ⟨p, g1, _, g2⟩ := listed_entry h.mounted h.plain h1
  unfold dosLookup33
  unfold DosEntry33 at g1
  rw [← h2, g1, ← h3, ← g2]
  rfl

theorem HelloIn.used {b0 : Bytes} {m : DImg} {ds n} (h : HelloIn b0 m ds n) (hl : sec33 b0 49 = helloList) :
    ∀ s, s < 50 → ¬ IsFree33 m.bytes s ∧ s ∉ catBlank33 ∧ s ≠ 272 := by
  intro s hs
  have hc : ∀ x ∈ catBlank33, 50 ≤ x := by decide
  refine ⟨?_, fun hx => by have := hc s hx; omega, by omega⟩
  rcases Nat.lt_or_ge s 48 with h48 | h48
  · exact (h.sys s h48).used
  · obtain ⟨d, h1, h2, _, h3⟩ := h.file
    have c := h.mounted.2
    obtain ⟨_, e⟩ := mounted33_iff.mp h.mounted
    rw [e] at h1
    obtain ⟨g1, g2⟩ := List.mem_filter.mp (show d ∈ ds.filter (fun d => !d.deleted) from h1)
    obtain ⟨ts, map, f1, f2, _, f3⟩ := c.files d g1 (by simpa using g2)
    obtain ⟨k1, k2⟩ := hello_secs ((h.same 49 (by omega)).trans hl) h3 f1 f2
    refine (f3 s ?_).2
    rcases (show s = 48 ∨ s = 49 by omega) with rfl | rfl
    · exact List.mem_append_right _ k2
    · rw [k1]; exact List.mem_append_left _ (List.mem_cons_self ..)

theorem HelloIn.next {b0 : Bytes} {m m' : DImg} {ds ds' n n'} {op : Op33} {c : Except Err Bytes} (h : HelloIn b0 m ds n) (hl : sec33 b0 49 = helloList)
    (hrun : op.run m = (.ok (), m')) (hm : Mounted33 m' catBlank33 ds') (hk : SysKept catBlank33 m.bytes ds m'.bytes ds')
    (pd : PlainDisk33 m'.bytes catBlank33 n') (hin : (helloName, 2, c) ∈ m'.listing)
    (hlook : dosLookup33 m'.bytes catBlank33 (dosName33 helloName) = dosLookup33 m.bytes catBlank33 (dosName33 helloName)) : HelloIn b0 m' ds' n' := by
  refine ⟨hm, pd, ?_, fun s hs => (hk s (h.sys s hs)).1, fun s hs => ?_⟩
  · unfold DImg.listing at hin
    obtain ⟨d, hd, e⟩ := List.mem_map.mp hin
    have e1 : d.filename = helloName := congrArg Prod.fst e
    have e2 : d.ftype = 2 := congrArg (fun x => x.2.1) e
    refine ⟨d, hd, e1, e2, ?_⟩
    obtain ⟨p, g1, _, g2⟩ := listed_entry hm pd hd
    rw [h.lookup] at hlook
    unfold dosLookup33 at hlook
    unfold DosEntry33 at g1
    rw [← e1, g1] at hlook
    injection hlook with hlook
    exact g2.symm.trans hlook
  · rw [← h.same s hs]
    obtain ⟨u1, u2, u3⟩ := h.used hl s hs
    refine (C72_sectors_in_use h.mounted.2.size hrun).2 s u3 u1 (fun hx => u2 ?_)
    obtain ⟨_, e⟩ := mounted33_iff.mp h.mounted
    have e : m.firstDir = linkOf (sec33 m.bytes 272) := by rw [e]; rfl
    rw [e] at hx
    exact chain33_linked h.mounted.2.cat (by decide) s hx

theorem HelloIn.listed {b0 : Bytes} {m : DImg} {ds n} (h : HelloIn b0 m ds n) : ∃ c, (helloName, 2, c) ∈ m.listing := by
  obtain ⟨d, h1, h2, h3, _⟩ := h.file
  refine ⟨d.getFile m.maxSectors m.bytes, ?_⟩
  unfold DImg.listing
  exact List.mem_map.mpr ⟨d, h1, by rw [h2, h3]⟩

theorem norm33_hello : norm33 helloName = helloName ∧ ∀ c ∈ helloName, c < 0x80 := by decide

theorem HelloIn.write {b0 : Bytes} {m m' : DImg} {ds n ft} {name x : Bytes} (h : HelloIn b0 m ds n) (hl : sec33 b0 49 = helloList) (hc : norm33 name = name)
    (ha : ∀ c ∈ name, c < 0x80) (hft : ft < 128) (hft0 : ft ≠ 0) (hnew : name ∉ m.names) (hw : DImg.writeFile name ft x m = (.ok (), m')) : ∃ ds' n', HelloIn b0 m' ds' n' := by
  obtain ⟨v, h272, hn, hcs, hfree, hlow⟩ := mounted_names h.mounted
  obtain ⟨n', _, _, pd'⟩ := C115_plain_added h.mounted.1 v h272 hn hcs hfree hft hft0 hc ha h.plain hlow hw
  obtain ⟨ds', k1, k2⟩ := sys_write h.mounted hft hft0 (by rw [hc]; exact hnew) hw
  obtain ⟨⟨L1, L2, g1, g2⟩, _⟩ := C11_write_frame h.mounted hc hft hft0 hnew hw
  obtain ⟨c, hin⟩ := h.listed
  have hne : name ≠ helloName := by
    intro e
    apply hnew
    rw [e, ← listing33_names]
    exact List.mem_map_of_mem (f := (·.1)) hin
  have hlen : name.length ≤ 29 := by
    rw [← hc]
    unfold norm33
    exact Nat.le_trans (length_rstripWs _) (by rw [List.length_take]; omega)
  have hlook := (C115_added_partial h.mounted.1 v h272 hn hcs hfree hft h.plain.toPlainCat33 hlow h.plain.names hw).1 (dosName33 helloName) (by
    rw [List.take_of_length_le (by omega)]
    intro e
    exact hne (dosName33_inj norm33_hello.1 hc norm33_hello.2 ha e).symm)
  refine ⟨ds', n', h.next (op := .write name ft x) (c := c) hl hw k1 k2 pd' ?_ hlook⟩
  rw [g1] at hin
  rw [g2]
  rcases List.mem_append.mp hin with hin | hin
  · exact List.mem_append_left _ hin
  · exact List.mem_append_right _ (List.mem_cons_of_mem _ hin)

theorem HelloIn.delete {b0 : Bytes} {m m' : DImg} {ds n} {name : Bytes} (h : HelloIn b0 m ds n) (hl : sec33 b0 49 = helloList) (hc : norm33 name = name)
    (ha : ∀ c ∈ name, c < 0x80) (hne : name ≠ helloName) (hin0 : name ∈ m.names) (hw : DImg.deleteFile name m = (.ok (), m')) : ∃ ds', HelloIn b0 m' ds' n := by
  obtain ⟨v, h272, hn, hcs, hfree, hlow⟩ := mounted_names h.mounted
  have pd' := C115_plain_removed h.mounted.1 v h272 hn h.plain hw
  obtain ⟨ds', k1, k2⟩ := sys_delete h.mounted hin0 hw
  obtain ⟨m1, _, e1, _, _, _, ⟨L1, L2, y, g1, g2⟩, _⟩ := C12_delete h.mounted hin0
  rw [hw] at e1
  cases e1
  obtain ⟨c, hin⟩ := h.listed
  have hlook := C115_removed_partial h.mounted.1 v h272 hn h.plain.toPlainCat33 h.plain.names hw (x := dosName33 helloName) (fun e =>
    hne (dosName33_inj norm33_hello.1 hc norm33_hello.2 ha e).symm)
  refine ⟨ds', h.next (op := .delete name) (c := c) hl hw k1 k2 pd' ?_ hlook⟩
  rw [g1] at hin
  rw [g2]
  rcases List.mem_append.mp hin with hin | hin
  · exact List.mem_append_left _ hin
  · rcases List.mem_cons.mp hin with hin | hin
    · exact absurd (congrArg Prod.fst hin).symm hne
    · exact List.mem_append_right _ hin

theorem find33_listed {m : DImg} {t : Char} {name : Bytes} (hin : name ∈ m.names) : (dos33Driver t).find m name = .ok () := by
  obtain ⟨d, hd, he⟩ := List.mem_map.mp hin
  show (m.findDirent name).map _ = _
  unfold DImg.findDirent
  cases hf : m.files.find? (fun d => d.filename == name) with
  | none =>
    rw [List.find?_eq_none] at hf
    have := hf d hd
    simp [he] at this
  | some d => rfl

theorem find33_unlisted {m : DImg} {t : Char} {name : Bytes} (hin : name ∉ m.names) : (dos33Driver t).find m name = .error .fileNotFound := by
  show (m.findDirent name).map _ = _
  rw [(find33_missing hin).1]
  rfl

theorem HelloIn.save {b0 : Bytes} {m m' : DImg} {ds n} {o : Opts} {name x : Bytes} {t : Char} {ch : Bool} (h : HelloIn b0 m ds n)
    (hl : sec33 b0 49 = helloList) (ht : t ≠ 'T')
    (hc : norm33 name = name) (ha : ∀ c ∈ name, c < 0x80) (hf : o.force = true → name ≠ helloName)
    (hs : saveFile (dos33Driver t) o name x m = (.ok ch, m')) : ∃ ds' n', HelloIn b0 m' ds' n' := by
  obtain ⟨t1, t2⟩ := textToType33_ok ht
  have fin : ∀ {m1 ds1 n1}, HelloIn b0 m1 ds1 n1 → name ∉ m1.names → finishSave (dos33Driver t) o name x m1 = (.ok ch, m') →
      ∃ ds' n', HelloIn b0 m' ds' n' := by
    intro m1 ds1 n1 h1 hnew h
    unfold finishSave at h
    split at h
    · cases h; exact ⟨_, _, h1⟩
    · rw [show (dos33Driver t).write name x m1 = DImg.writeFile name (textToType33 t) x m1 from rfl] at h
      cases hw : DImg.writeFile name (textToType33 t) x m1 with
      | mk r m2 =>
        rw [hw] at h
        cases r with
        | error e => cases h
        | ok u => cases h; exact h1.write hl hc ha t1 t2 hnew hw
  unfold saveFile at hs
  by_cases hin : name ∈ m.names
  · obtain ⟨m1, ds1, d1, d2, _, d3, _⟩ := C12_delete h.mounted hin
    rw [find33_listed hin] at hs
    simp only at hs
    split at hs
    · rename_i hfo
      rw [show (dos33Driver t).delete name m = (.ok (), m1) from d1] at hs
      obtain ⟨ds', h'⟩ := h.delete hl hc ha (hf hfo) hin d1
      exact fin h' d3 hs
    · cases hs; exact ⟨_, _, h⟩
  · rw [find33_unlisted hin] at hs
    exact fin h hin hs

theorem HelloIn.adds {b0 : Bytes} {o : Opts} {t : Char} (hl : sec33 b0 49 = helloList) (ht : t ≠ 'T') :
    ∀ (fs : List (Bytes × Bytes)) {m m' : DImg} {ds n} {ch c : Bool}, HelloIn b0 m ds n →
    (∀ x ∈ fs, norm33 x.1 = x.1 ∧ ∀ c ∈ x.1, c < 0x80) → (o.force = true → ∀ x ∈ fs, x.1 ≠ helloName) →
    addLoop (dos33Driver t) o fs ch m = (.ok c, m') → ∃ ds' n', HelloIn b0 m' ds' n' := by
  intro fs
  induction fs with
  | nil => intro m m' ds n ch c h _ _ hr; cases hr; exact ⟨_, _, h⟩
  | cons f fs ih =>
    intro m m' ds n ch c h hn hf hr
    obtain ⟨name, x⟩ := f
    unfold addLoop at hr
    cases hs : saveFile (dos33Driver t) o name x m with
    | mk q m1 =>
      rw [hs] at hr
      cases q with
      | error e => cases hr
      | ok d =>
        obtain ⟨g1, g2⟩ := hn _ List.mem_cons_self
        obtain ⟨_, _, h1⟩ := h.save hl ht g1 g2 (fun hfo => hf hfo _ List.mem_cons_self) hs
        exact ih h1 (fun x hx => hn x (List.mem_cons_of_mem _ hx)) (fun hfo x hx => hf hfo x (List.mem_cons_of_mem _ hx)) hr

theorem HelloIn.removes {b0 : Bytes} {o : Opts} {t : Char} (hl : sec33 b0 49 = helloList) :
    ∀ (ns : List Bytes) {m m' : DImg} {ds n} {ch c : Bool}, HelloIn b0 m ds n →
    (∀ x ∈ ns, norm33 x = x ∧ (∀ c ∈ x, c < 0x80) ∧ x ≠ helloName) →
    removeLoop (dos33Driver t) o ns ch m = (.ok c, m') → ∃ ds' n', HelloIn b0 m' ds' n' := by
  intro ns
  induction ns with
  | nil => intro m m' ds n ch c h _ hr; cases hr; exact ⟨_, _, h⟩
  | cons name ns ih =>
    intro m m' ds n ch c h hn hr
    have hn' := fun x hx => hn x (List.mem_cons_of_mem _ hx)
    unfold removeLoop at hr
    by_cases hin : name ∈ m.names
    · rw [find33_listed hin] at hr
      simp only at hr
      split at hr
      · exact ih h hn' hr
      · obtain ⟨m1, _, d1, _⟩ := C12_delete h.mounted hin
        rw [show (dos33Driver t).delete name m = (.ok (), m1) from d1] at hr
        obtain ⟨g1, g2, g3⟩ := hn _ List.mem_cons_self
        obtain ⟨_, h1⟩ := h.delete hl g1 g2 g3 hin d1
        exact ih h1 hn' hr
    · rw [find33_unlisted hin] at hr
      exact ih h hn' hr

/-- the catalog is plain if its sectors are those of a plain catalog -/
theorem plain_frame {b b' : Bytes} {cs : List Nat} {n : Nat} (hs : ∀ x ∈ cs, sec33 b' x = sec33 b x) (h : PlainDisk33 b cs n) : PlainDisk33 b' cs n := by
  have slot : ∀ t, t < 7 * cs.length → (∀ i, i < 35 → byteOf b' (slotPos33 cs t + i) = byteOf b (slotPos33 cs t + i)) ∧
      nameField33 b' (slotPos33 cs t) = nameField33 b (slotPos33 cs t) := by
    intro t ht
    have hl : t / 7 < cs.length := by omega
    have hx : cs.getD (t / 7) 0 ∈ cs := by
      rw [List.getD_eq_getElem?_getD, List.getElem?_eq_getElem hl]
      exact List.getElem_mem hl
    have hm : t % 7 < 7 := Nat.mod_lt _ (by omega)
    have e := hs _ hx
    unfold slotPos33
    generalize cs.getD (t / 7) 0 = s at e
    refine ⟨fun i hi => byteOf_same hm e i hi, ?_⟩
    unfold nameField33
    have key : ∀ c : Bytes, slice (sec33 c s) (11 + 35 * (t % 7) + 3) (11 + 35 * (t % 7) + 33) =
        slice c (256 * s + 11 + 35 * (t % 7) + 3) (256 * s + 11 + 35 * (t % 7) + 33) := by
      intro c
      unfold sec33
      rw [slice_slice, show min (256 * s + 256) (256 * s + (11 + 35 * (t % 7) + 33)) = 256 * s + 11 + 35 * (t % 7) + 33 by omega,
        show 256 * s + (11 + 35 * (t % 7) + 3) = 256 * s + 11 + 35 * (t % 7) + 3 by omega]
    rw [← key, ← key, e]
  have b0 : ∀ t, t < 7 * cs.length → byteOf b' (slotPos33 cs t) = byteOf b (slotPos33 cs t) := fun t ht => (slot t ht).1 0 (by omega)
  have pc : PlainCat33 b' cs n := by
    have hle := h.le
    refine ⟨h.le, fun t ht => ?_, fun t ht => ?_, fun t h1 h2 => ?_⟩
    · rw [b0 t (by omega)]; exact h.track t ht
    · rw [b0 t (by omega), (slot t (by omega)).1 2 (by omega)]; exact h.type t ht
    · rw [b0 t h2, (slot t h2).1 2 (by omega)]; exact h.rest t h1 h2
  have seen : ∀ p ∈ catSeen33 b' cs, p ∈ catSeen33 b cs ∧ ∃ t, t < 7 * cs.length ∧ p = slotPos33 cs t := by
    intro p hp
    rw [pc.seen] at hp
    refine ⟨by rw [h.toPlainCat33.seen]; exact hp, ?_⟩
    obtain ⟨t, ht, rfl⟩ := List.mem_map.mp hp
    exact ⟨t, by have := List.mem_range.mp ht; have := h.le; omega, rfl⟩
  refine ⟨pc, fun p hp hd => ?_, fun p hp hd => ?_⟩
  · obtain ⟨h1, t, ht, rfl⟩ := seen p hp
    rw [b0 t ht] at hd
    rw [(slot t ht).2]
    exact h.names _ h1 hd
  · obtain ⟨h1, t, ht, rfl⟩ := seen p hp
    rw [b0 t ht] at hd
    rw [(slot t ht).1 2 (by omega)]
    exact h.types _ h1 hd

theorem HelloIn.shred {b0 : Bytes} {m m' : DImg} {ds n fill} {r : Except Err Unit} (h : HelloIn b0 m ds n) (hl : sec33 b0 49 = helloList)
    (hw : DImg.shred fill m = (r, m')) : ∃ ds' n', HelloIn b0 m' ds' n' := by
  obtain ⟨c, e⟩ := mounted33_iff.mp h.mounted
  obtain ⟨ds', s1, s2⟩ := sys_shred h.mounted hw
  obtain ⟨b', k1, k2, _, _, k5⟩ := shred33_mounted c fill
  rw [← e, hw] at k1
  injection k1 with _ k1
  have hm' : Mounted33 m' catBlank33 ds := by rw [k1]; exact mounted33_mount k2
  have hds := mounted33_entries s1 hm'
  subst hds
  have hb : m'.bytes = b' := by rw [k1]; rfl
  refine ⟨ds', n, hm', ?_, ?_, fun s hs => (s2 s (h.sys s hs)).1, fun s hs => ?_⟩
  · refine plain_frame (fun x hx => ?_) h.plain
    rw [hb]
    exact k5 x (fun hf => (c.free x hf).2.2.2 hx)
  · obtain ⟨d, h1, h2⟩ := h.file
    refine ⟨d, ?_, h2⟩
    rw [e] at h1
    rw [k1]
    exact h1
  · rw [← h.same s hs, hb]
    exact k5 s (h.used hl s hs).1

/-! ### programs -/

/-- the names are stored as they are, and none removes or replaces `HELLO` -/
def Cmd.SparesHello (o : Opts) : Cmd → Prop
  | .add fs => (∀ x ∈ fs, norm33 x.1 = x.1 ∧ ∀ c ∈ x.1, c < 0x80) ∧ (o.force = true → ∀ x ∈ fs, x.1 ≠ helloName)
  | .remove ns => ∀ x ∈ ns, norm33 x = x ∧ (∀ c ∈ x, c < 0x80) ∧ x ≠ helloName
  | .shred => True

/-- what the disk `b0` has become after programs have been assembled to it and files added and removed any number of times, under any names
and with any outcome; but nobody asked to replace or remove `HELLO`, or to add text files (C77_text_hides) -/
inductive Developed (b0 : Bytes) : Bytes → Prop
  | made : Developed b0 b0
  | again {b : Bytes} (o : Opts) (output : Bytes) (segs : List Seg) (run : Option Nat) : Developed b0 b → norm33 output = output →
      (∀ c ∈ output, c < 0x80) → (o.force = true → output ≠ helloName) → Developed b0 (runAssemble (dos33Driver 'B') o .bsave output segs run b).2
  | command {b : Bytes} (t : Char) (o : Opts) (c : Cmd) : Developed b0 b → t ≠ 'T' → c.SparesHello o → Developed b0 (c.run (dos33Driver t) o b).2

theorem developed_hello {b0 b : Bytes} (t : Autobrun33 b0) (h : Developed b0 b) : ∃ m ds n, m.bytes = b ∧ HelloIn b0 m ds n := by
  induction h with
  | made =>
    refine ⟨mount33 b0 _, [helloDirent, gameDirent], 2, rfl, mounted33_mount (autobrun_consistent t), autobrun_plain t, ?_, fun s hs => autobrun_sys t hs, fun s _ => rfl⟩
    exact ⟨helloDirent, List.mem_filter.mpr ⟨List.mem_cons_self .., rfl⟩, rfl, rfl, by decide⟩
  | @again b o output segs run hd hc ha hf ih =>
    obtain ⟨m, ds, n, rfl, h⟩ := ih
    unfold runAssemble
    rw [show (dos33Driver 'B').load m.bytes = .ok m from h.mounted.1]
    simp only
    cases createExecutable .bsave output segs run with
    | error e => exact ⟨m, ds, n, rfl, h⟩
    | ok x =>
      simp only
      cases hs : saveFile (dos33Driver 'B') o output x m with
      | mk q m' =>
        cases q with
        | error e => exact ⟨m, ds, n, rfl, h⟩
        | ok c =>
          cases c with
          | false => exact ⟨m, ds, n, rfl, h⟩
          | true =>
            obtain ⟨ds', n', h'⟩ := h.save t.list (by decide) hc ha hf hs
            exact ⟨m', ds', n', rfl, h'⟩
  | @command b ty o c hd hty hsp ih =>
    obtain ⟨m, ds, n, rfl, h⟩ := ih
    unfold Cmd.run
    rw [show (dos33Driver ty).load m.bytes = .ok m from h.mounted.1]
    simp only
    cases hx : c.exec (dos33Driver ty) o m with
    | mk q m' =>
      cases q with
      | error e => exact ⟨m, ds, n, rfl, h⟩
      | ok ch =>
        cases ch with
        | false => exact ⟨m, ds, n, rfl, h⟩
        | true =>
          have : ∃ ds' n', HelloIn b0 m' ds' n' := by
            cases c with
            | add fs => exact h.adds t.list hty fs hsp.1 hsp.2 hx
            | remove ns => exact h.removes t.list ns hsp hx
            | shred =>
              unfold Cmd.exec at hx
              simp only at hx
              split at hx
              · cases hx
              · cases hs : (dos33Driver ty).shred m with
                | mk r m1 =>
                  rw [hs] at hx
                  cases r with
                  | error e => cases hx
                  | ok u => cases hx; exact h.shred t.list hs
          obtain ⟨ds', n', h'⟩ := this
          exact ⟨m', ds', n', rfl, h'⟩

theorem holds_of_mounted {m : DImg} {cs ds} (h : Mounted33 m cs ds) : ∃ M, Holds33 cs m.bytes M ∧ M.keys = m.names := by
  have hall : ∀ d ∈ m.files, ∃ x : Bytes, x.length % 256 = 0 ∧ d.getFile m.maxSectors m.bytes = .ok x := by
    intro d hd
    obtain ⟨c, e⟩ := mounted33_iff.mp h
    have hmax : m.maxSectors = 560 := by rw [e]; rfl
    rw [e] at hd
    obtain ⟨g1, g2⟩ := List.mem_filter.mp (show d ∈ ds.filter (fun d => !d.deleted) from hd)
    obtain ⟨ts, map, _, _, _, f4, f5⟩ := c.contents g1 (by simpa using g2)
    refine ⟨_, ?_, by rw [hmax]; exact f5⟩
    have hlen : ∀ l : List Nat, (∀ x ∈ l, x < 560) → (l.flatMap (sec33 m.bytes)).length = 256 * l.length := by
      intro l
      induction l with
      | nil => intro _; rfl
      | cons a l ih =>
        intro hl
        rw [List.flatMap_cons, List.length_append, ih (fun x hx => hl x (by simp [hx])), length_sec33 c.size (hl a (by simp)), List.length_cons]
        omega
    rw [hlen map fun x hx => (f4 x (by simp [hx])).1.2.1]
    omega
  let f : DDirent → Bytes × Bytes := fun d => (d.filename, (d.getFile m.maxSectors m.bytes).toOption.getD [])
  refine ⟨m.files.map f, ⟨m, ds, h.1, h, rfl, ?_⟩, ?_⟩
  · unfold DImg.listing
    rw [List.map_map, List.map_map]
    have : m.files.map ((fun x => (x.1, x.2.2)) ∘ fun d => (d.filename, d.ftype, d.getFile m.maxSectors m.bytes)) =
        m.files.map ((fun x => (x.1, Except.ok (padded33 x.2))) ∘ f) := by
      refine List.map_congr_left fun d hd => ?_
      obtain ⟨x, h1, h2⟩ := hall d hd
      show (d.filename, d.getFile m.maxSectors m.bytes) = (d.filename, Except.ok (padded33 ((d.getFile m.maxSectors m.bytes).toOption.getD [])))
      rw [h2]
      show (_, Except.ok x) = (_, Except.ok (padded33 x))
      unfold padded33
      rw [h1]
      simp
    rw [this]
  · unfold FMap.keys DImg.names
    rw [List.map_map]
    rfl

theorem hello_found {b0 : Bytes} {m : DImg} {ds n} (h : HelloIn b0 m ds n) (hl : sec33 b0 49 = helloList) :
    DosHas33 m.bytes catBlank33 (dosName33 helloName) 2 (sec33 b0 48) := by
  obtain ⟨d, h1, h2, h3, h4⟩ := h.file
  obtain ⟨p, g1, g2, g3⟩ := listed_entry h.mounted h.plain h1
  rw [h2] at g1
  refine ⟨p, g1, by rw [g2, h3], fun k hk => ?_⟩
  have hk : k < 256 := by
    have : (sec33 b0 48).length ≤ 256 := by
      unfold sec33 slice
      rw [List.length_drop, List.length_take]
      omega
    omega
  rw [g3, h4]
  have hs : sec33 m.bytes 49 = helloList := (h.same 49 (by omega)).trans hl
  have f0 : listFirst33 helloList = 0 := by decide +kernel
  have f1 : listPair33 helloList 0 = 48 := by decide +kernel
  refine ⟨48, by omega, ?_, ?_⟩
  · have hz : k / 256 = 0 := by omega
    have := DosFinds33.here (b := m.bytes) (t := 49) (n := k / 256) (by rw [hs, f0]; omega) (by rw [hs, f0]; omega)
    rw [hs, f0, hz, f1] at this
    rw [hz]
    exact this
  · rw [h.same 48 (by omega), show k % 256 = k by omega]

/-- **C120, what is kept.** However often programs have been assembled to a disk made from the template, with whatever outcome: tracks 0 to
2 hold what they held, and DOS 3.3 finds the Applesoft program `HELLO` and reads what it read. -/
theorem C120_kept {b0 b : Bytes} (t : Autobrun33 b0) (hd : Developed b0 b) : b.length = 143360 ∧ (∀ s, s < 48 → sec33 b s = sec33 b0 s) ∧
    DosHas33 b autobrunCats (dosName33 helloName) 2 (sec33 b0 48) := by
  obtain ⟨m, ds, n, rfl, h⟩ := developed_hello t hd
  exact ⟨h.mounted.2.size, fun s hs => h.same s (by omega), hello_found h t.list⟩

/-- **C120, what is run.** If the last of the programs was assembled to `AUTOBRUN` with `--force` and without an error message, is at most
31232 bytes long with its header and does not start in the first three bytes of memory, then `BRUN AUTOBRUN` starts it: the segments are in
memory, the program counter is at the first of them or at a jump to the run address. -/
theorem C120_runs_partial {b0 b : Bytes} {o : Opts} {segs : List Seg} {run : Option Nat} {x : Bytes} {lo hi : Nat} (t : Autobrun33 b0)
    (hd : Developed b0 b) (hdry : o.dryRun = false) (hforce : o.force = true) (hx : getBsave segs run = .ok x) (he : Extent segs lo hi)
    (h3 : 3 ≤ lo) (hhi : hi ≤ 65536) (ho : ∀ s ∈ segs, s.origin < 65536) (hlen : x.length ≤ 31232)
    (hok : (runAssemble (dos33Driver 'B') o .bsave autobrunName segs run b).1 = .ok ()) (mem : Nat → UInt8) :
    ∃ mem' pc, BRuns (runAssemble (dos33Driver 'B') o .bsave autobrunName segs run b).2 autobrunCats (dosName33 autobrunName) mem mem' pc ∧
      (∀ a, lo ≤ a → a < hi → mem' a = memAt segs a) ∧ (∀ a, a + 3 < lo ∨ hi ≤ a → mem' a = mem a) ∧
      ((run = none ∨ run = some 0 ∨ run = some lo) ∧ pc = lo ∧ (∀ a, a < lo → mem' a = mem a) ∨
       ∃ r, run = some r ∧ (∃ s ∈ segs, s.Covers r) ∧ decode6502 mem' pc = some (.jmp r, 3)) := by
  obtain ⟨m, ds, n, rfl, h⟩ := developed_hello t hd
  obtain ⟨M, hh, _⟩ := holds_of_mounted h.mounted
  exact C116_assemble hh h.plain hdry (.inr hforce) (by decide) (by decide) (by decide) hx he h3 hhi ho hlen hok mem

/-- **C120, the command succeeds** the first time if the program fits on the 494 free sectors. -/
theorem C120_succeeds {b0 : Bytes} {o : Opts} {segs : List Seg} {run : Option Nat} {x : Bytes} (t : Autobrun33 b0) (hdry : o.dryRun = false)
    (hx : getBsave segs run = .ok x) (hne : x ≠ []) (hroom : dataSecs33 x.length + listSecs33 x.length ≤ 494) :
    (runAssemble (dos33Driver 'B') o .bsave autobrunName segs run b0).1 = .ok () := by
  have hm := mounted33_mount (autobrun_consistent t)
  obtain ⟨M, hh, hk⟩ := holds_of_mounted hm
  have hk : M.keys = [helloName] := hk
  have hl : M.length = 1 := by
    have := congrArg List.length hk
    unfold FMap.keys at this
    simpa using this
  exact C64_succeeds33 hh hdry (by rw [hk]; decide) ⟨by decide, by unfold Ascii33; decide, hne⟩ (by rw [hl]; decide) (by decide) hx
    (by rw [autobrun_pool t]; exact hroom)

/-- **C120, the command succeeds again.** With `--force` it succeeds after any history if the program fits on the free sectors and the
catalog has an entry left. -/
theorem C120_succeeds_again {b0 b : Bytes} {m : DImg} {o : Opts} {segs : List Seg} {run : Option Nat} {x : Bytes} (t : Autobrun33 b0)
    (hd : Developed b0 b) (hm : DImg.open b = .ok m) (hslot : m.files.length < 98) (hdry : o.dryRun = false) (hforce : o.force = true)
    (hx : getBsave segs run = .ok x) (hne : x ≠ []) (hroom : dataSecs33 x.length + listSecs33 x.length ≤ (freePool33 b).length) :
    (runAssemble (dos33Driver 'B') o .bsave autobrunName segs run b).1 = .ok () := by
  obtain ⟨m0, ds, n, rfl, h⟩ := developed_hello t hd
  have he := h.mounted.1
  rw [hm] at he
  injection he with he
  subst he
  have hce : createExecutable .bsave autobrunName segs run = .ok x := by
    unfold createExecutable
    rw [show exeKind autobrunName = none by decide]
    exact hx
  have fin : ∀ {m1 ds1}, Mounted33 m1 catBlank33 ds1 → autobrunName ∉ m1.names → m1.files.length < 98 →
      (freePool33 m.bytes).length ≤ (freePool33 m1.bytes).length → ∃ m', finishSave (dos33Driver 'B') o autobrunName x m1 = (.ok true, m') := by
    intro m1 ds1 hm1 hnew hs hp
    have hw : (DImg.writeFile autobrunName 4 x m1).1 = .ok () := by
      refine (C10_write_succeeds_iff hm1 (by decide) (by decide) ?_).mpr ⟨hne, by unfold Ascii33; decide, hs, by omega⟩
      rw [show norm33 autobrunName = autobrunName by decide]; exact hnew
    cases hwf : DImg.writeFile autobrunName 4 x m1 with
    | mk r m' =>
      rw [hwf] at hw
      simp only at hw
      subst hw
      refine ⟨m', ?_⟩
      unfold finishSave
      simp only [hdry, Bool.false_eq_true, if_false]
      rw [show (dos33Driver 'B').write autobrunName x m1 = (.ok (), m') from hwf]
  have hs : ∃ m', saveFile (dos33Driver 'B') o autobrunName x m = (.ok true, m') := by
    unfold saveFile
    by_cases hin : autobrunName ∈ m.names
    · obtain ⟨m1, ds1, d1, d2, _, d3, ⟨L1, L2, y, l1, l2⟩, _, _, _, _, _, _, _, _, f1, _⟩ := C12_delete h.mounted hin
      have hlen : m1.files.length ≤ m.files.length := by
        have e1 := congrArg List.length l1
        have e2 := congrArg List.length l2
        unfold DImg.listing at e1 e2
        simp only [List.length_map, List.length_append, List.length_cons] at e1 e2
        omega
      have hp : (freePool33 m.bytes).length ≤ (freePool33 m1.bytes).length := by
        unfold freePool33
        rw [← List.countP_eq_length_filter, ← List.countP_eq_length_filter]
        refine List.countP_mono_left fun s _ hs => ?_
        rw [decide_eq_true_eq] at hs ⊢
        exact (f1 s).mpr (.inl hs)
      obtain ⟨m', hm'⟩ := fin d2 d3 (by omega) hp
      refine ⟨m', ?_⟩
      rw [find33_listed hin]
      simp only [hforce, if_true]
      rw [show (dos33Driver 'B').delete autobrunName m = (.ok (), m1) from d1]
      exact hm'
    · obtain ⟨m', hm'⟩ := fin h.mounted hin hslot (Nat.le_refl _)
      refine ⟨m', ?_⟩
      rw [find33_unlisted hin]
      exact hm'
  unfold runAssemble
  rw [show (dos33Driver 'B').load m.bytes = .ok m from hm]
  simp only [hce]
  obtain ⟨m', hm'⟩ := hs
  rw [hm']

/-- **C120 (refuted).** A longer program that still fits on the disk is assembled without an error message, but `BRUN AUTOBRUN` does not
load it. -/
theorem C120_refuted_long {b0 : Bytes} {o : Opts} {segs : List Seg} {run : Option Nat} {x : Bytes} {lo hi : Nat} (t : Autobrun33 b0)
    (hdry : o.dryRun = false) (hx : getBsave segs run = .ok x) (he : Extent segs lo hi) (h3 : 3 ≤ lo) (hhi : hi < lo + 65533)
    (ho : ∀ s ∈ segs, s.origin < 65536) (hlen : 31232 < x.length) (hroom : dataSecs33 x.length + listSecs33 x.length ≤ 494) :
    (runAssemble (dos33Driver 'B') o .bsave autobrunName segs run b0).1 = .ok () ∧ ∀ mem mem' pc,
      ¬ BRuns (runAssemble (dos33Driver 'B') o .bsave autobrunName segs run b0).2 autobrunCats (dosName33 autobrunName) mem mem' pc := by
  have hm := mounted33_mount (autobrun_consistent t)
  have hne : x ≠ [] := by intro e; subst e; cases hlen
  have hnames : (mount33 b0 [helloDirent, gameDirent]).names = [helloName] := rfl
  have hnew : autobrunName ∉ (mount33 b0 [helloDirent, gameDirent]).names := by rw [hnames]; decide
  have hw : (DImg.writeFile autobrunName 4 x (mount33 b0 [helloDirent, gameDirent])).1 = .ok () := by
    refine (C10_write_succeeds_iff hm (by decide) (by decide) ?_).mpr ⟨hne, by unfold Ascii33; decide, ?_, ?_⟩
    · rw [show norm33 autobrunName = autobrunName by decide]; exact hnew
    · show 1 < _
      decide
    · rw [mount33_bytes, autobrun_pool t]; exact hroom
  have hsave : ∃ m', DImg.writeFile autobrunName 4 x (mount33 b0 [helloDirent, gameDirent]) = (.ok (), m') ∧
      runAssemble (dos33Driver 'B') o .bsave autobrunName segs run b0 = (.ok (), m'.bytes) := by
    cases hwf : DImg.writeFile autobrunName 4 x (mount33 b0 [helloDirent, gameDirent]) with
    | mk r m' =>
      rw [hwf] at hw
      simp only at hw
      subst hw
      refine ⟨m', rfl, ?_⟩
      have hce : createExecutable .bsave autobrunName segs run = .ok x := by
        unfold createExecutable
        rw [show exeKind autobrunName = none by decide]
        exact hx
      unfold runAssemble
      rw [show (dos33Driver 'B').load b0 = .ok (mount33 b0 [helloDirent, gameDirent]) from hm.1]
      simp only [hce]
      have e1 : saveFile (dos33Driver 'B') o autobrunName x (mount33 b0 [helloDirent, gameDirent]) = (.ok true, m') := by
        unfold saveFile finishSave
        have hfind : (dos33Driver 'B').find (mount33 b0 [helloDirent, gameDirent]) autobrunName = .error .fileNotFound := by
          show ((mount33 b0 [helloDirent, gameDirent]).findDirent autobrunName).map (fun _ => ()) = _
          rw [(find33_missing hnew).1]
          rfl
        rw [hfind]
        simp only [hdry, Bool.false_eq_true, if_false]
        rw [show (dos33Driver 'B').write autobrunName x (mount33 b0 [helloDirent, gameDirent]) = (.ok (), m') from hwf]
      rw [e1]
      rfl
  obtain ⟨m', g1, g2⟩ := hsave
  rw [g2]
  exact ⟨rfl, fun mem mem' pc => C116_refuted_long hm (autobrun_plain t) (by decide) (by decide) hnew he h3 hhi ho hlen hx g1 mem mem' pc⟩

/-! ### an instance -/

/-- contents of the sectors of the instance; `HELLO` and DOS are replaced by other bytes -/
def autobrunSec (s : Nat) : Bytes :=
  if s = 272 then autobrunVtoc
  else if s = 287 then autobrunCat
  else if 274 ≤ s ∧ s < 287 then [0, 0x11, UInt8.ofNat (s - 273)] ++ List.replicate 253 0
  else if s = 273 then List.replicate 256 0
  else if s = 49 then helloList
  else List.replicate 256 (UInt8.ofNat s)

def autobrunDisk : Bytes := (List.range 560).flatMap autobrunSec

theorem autobrunSec_length (s : Nat) : (autobrunSec s).length = 256 := by
  unfold autobrunSec
  split
  · decide +kernel
  split
  · decide +kernel
  split
  · rw [List.length_append, List.length_replicate]; rfl
  split
  · exact List.length_replicate
  split
  · decide +kernel
  · exact List.length_replicate

theorem autobrun_disk : Autobrun33 autobrunDisk := by
  have hs : ∀ s, s < 560 → sec33 autobrunDisk s = autobrunSec s := fun s h => sec33_flatMap autobrunSec_length h
  refine ⟨?_, ?_, ?_, ?_, fun s h1 h2 => ?_, ?_, ?_⟩
  · unfold autobrunDisk
    rw [length_flatMap_const autobrunSec_length, List.length_range]
  · rw [hs 0 (by omega)]; decide +kernel
  · rw [hs 272 (by omega)]; rfl
  · rw [hs 287 (by omega)]; rfl
  · rw [hs s (by omega)]
    unfold autobrunSec
    rw [if_neg (by omega), if_neg (by omega), if_pos ⟨h1, h2⟩]
  · rw [hs 273 (by omega)]; rfl
  · rw [hs 49 (by omega)]; rfl

/-- two bytes at 0x2000 and one at 0x2004, to be started there, are assembled to `AUTOBRUN`: `HELLO` is as before, and its command
`BRUN AUTOBRUN` runs the program -/
example (mem : Nat → UInt8) : let b := (runAssemble (dos33Driver 'B') { force := true } .bsave autobrunName [⟨0x2000, [1, 2]⟩, ⟨0x2004, [3]⟩] (some 0x2004)
      autobrunDisk).2
    DosHas33 b autobrunCats (dosName33 helloName) 2 (List.replicate 256 48) ∧ ∃ mem' pc, BRuns b autobrunCats (dosName33 autobrunName) mem mem' pc ∧
      (mem' 0x2000, mem' 0x2001, mem' 0x2002, mem' 0x2003, mem' 0x2004) = (1, 2, 0, 0, 3) ∧ decode6502 mem' pc = some (.jmp 0x2004, 3) := by
  have hx : getBsave [⟨0x2000, [1, 2]⟩, ⟨0x2004, [3]⟩] (some 0x2004) = .ok [0xfd, 0x1f, 8, 0, 0x4c, 0x04, 0x20, 1, 2, 0, 0, 3] := by decide +kernel
  have t := autobrun_disk
  have h48 : sec33 autobrunDisk 48 = List.replicate 256 48 := by
    unfold autobrunDisk
    rw [sec33_flatMap autobrunSec_length (by omega)]
    rfl
  generalize autobrunDisk = b0 at t h48 ⊢
  intro b
  have hok := C120_succeeds (o := { force := true }) t rfl hx (by decide) (by decide)
  have hk := C120_kept t (.again { force := true } autobrunName [⟨0x2000, [1, 2]⟩, ⟨0x2004, [3]⟩] (some 0x2004) .made (by decide) (by decide) (fun _ => by decide))
  rw [h48] at hk
  refine ⟨hk.2.2, ?_⟩
  obtain ⟨mem', pc, h1, h2, h3, h4⟩ := C120_runs_partial (o := { force := true }) (lo := 0x2000) (hi := 0x2005) t .made rfl rfl hx
    ⟨by decide, by decide, by decide, by decide⟩ (by decide) (by decide) (by decide) (by decide) hok mem
  refine ⟨mem', pc, h1, ?_, ?_⟩
  · rw [h2 _ (by decide) (by decide), h2 _ (by decide) (by decide), h2 _ (by decide) (by decide), h2 _ (by decide) (by decide),
      h2 _ (by decide) (by decide)]
    rfl
  · rcases h4 with ⟨h5 | h5 | h5, _⟩ | ⟨r, h5, _, h6⟩
    · cases h5
    · cases h5
    · cases h5
    · cases h5; exact h6

/-- the disk has 494 free sectors and one of 98 possible files, so a program of 100 bytes can be assembled with `--force` -/
example (d : Bytes) (hd : d.length = 100) :
    (runAssemble (dos33Driver 'B') { force := true } .bsave autobrunName [⟨0x2000, d⟩] none autobrunDisk).1 = .ok () := by
  have t := autobrun_disk
  generalize autobrunDisk = b0 at t ⊢
  have he : Extent [⟨0x2000, d⟩] 0x2000 8292 :=
    ⟨fun s hs => by cases List.mem_singleton.mp hs; exact Nat.le_refl _, ⟨_, List.mem_singleton.mpr rfl, rfl⟩,
      fun s hs => by cases List.mem_singleton.mp hs; show 0x2000 + d.length ≤ _; omega, ⟨_, List.mem_singleton.mpr rfl, by show 0x2000 + d.length = _; omega⟩⟩
  have ho : ∀ s ∈ [(⟨0x2000, d⟩ : Seg)], s.origin < 65536 := fun s hs => by cases List.mem_singleton.mp hs; show 0x2000 < 65536; omega
  have hx := C19_plain he ho (runAddr := none) (.inl rfl)
  have hl : (enc16 0x2000 ++ enc16 (8292 - 0x2000) ++ memImage [⟨0x2000, d⟩] 0x2000 8292).length = 104 := by
    rw [List.length_append, memImage_length]
    rfl
  refine C120_succeeds_again t .made (mounted33_mount (autobrun_consistent t)).1 (show [helloDirent].length < 98 by decide) rfl rfl hx (fun e => ?_) ?_
  · rw [e] at hl; cases hl
  · rw [hl, autobrun_pool t]; decide

/-- a program is added as `GAME`, the file `AUTOBRUN` is removed, and the unused sectors are overwritten: `HELLO` is as before -/
example : DosHas33 (Cmd.run (dos33Driver 'B') {} .shred (Cmd.run (dos33Driver 'B') {} (.remove [autobrunName])
      (Cmd.run (dos33Driver 'B') {} (.add [([0x47, 0x41, 0x4d, 0x45], [0, 8, 1, 0, 0x60])]) autobrunDisk).2).2).2
    autobrunCats (dosName33 helloName) 2 (sec33 autobrunDisk 48) := by
  have t := autobrun_disk
  generalize autobrunDisk = b0 at t ⊢
  have h1 : Developed b0 (Cmd.run (dos33Driver 'B') {} (.add [([0x47, 0x41, 0x4d, 0x45], [0, 8, 1, 0, 0x60])]) b0).2 := by
    refine .command 'B' {} (.add [([0x47, 0x41, 0x4d, 0x45], [0, 8, 1, 0, 0x60])]) .made (by decide) ⟨?_, fun h => by cases h⟩
    intro x hx
    cases List.mem_singleton.mp hx
    decide
  have h2 := Developed.command 'B' {} (.remove [autobrunName]) h1 (by decide) (fun x hx => by
    cases List.mem_singleton.mp hx
    decide)
  exact (C120_kept t (.command 'B' {} .shred h2 (by decide) trivial)).2.2

/-- 31240 bytes at 0x2000: assembled without an error message, but `HELLO` cannot run them -/
example (d : Bytes) (hd : d.length = 31240) : (runAssemble (dos33Driver 'B') {} .bsave autobrunName [⟨0x2000, d⟩] none autobrunDisk).1 = .ok () ∧ ∀ mem mem' pc,
    ¬ BRuns (runAssemble (dos33Driver 'B') {} .bsave autobrunName [⟨0x2000, d⟩] none autobrunDisk).2 autobrunCats (dosName33 autobrunName) mem mem' pc := by
  have t := autobrun_disk
  generalize autobrunDisk = b0 at t ⊢
  have he : Extent [⟨0x2000, d⟩] 0x2000 39432 :=
    ⟨fun s hs => by cases List.mem_singleton.mp hs; exact Nat.le_refl _, ⟨_, List.mem_singleton.mpr rfl, rfl⟩,
      fun s hs => by cases List.mem_singleton.mp hs; show 0x2000 + d.length ≤ _; omega, ⟨_, List.mem_singleton.mpr rfl, by show 0x2000 + d.length = _; omega⟩⟩
  have ho : ∀ s ∈ [(⟨0x2000, d⟩ : Seg)], s.origin < 65536 := fun s hs => by cases List.mem_singleton.mp hs; show 0x2000 < 65536; omega
  have hx := C19_plain he ho (runAddr := none) (.inl rfl)
  have hl : (enc16 0x2000 ++ enc16 (39432 - 0x2000) ++ memImage [⟨0x2000, d⟩] 0x2000 39432).length = 31244 := by
    rw [List.length_append, memImage_length]
    rfl
  exact C120_refuted_long (o := {}) t rfl hx he (by omega) (by omega) ho (by rw [hl]; omega) (by rw [hl]; decide)

end Atr
