import Verif.Lemmas.AtariIO
/-! # Directory entries and directory sectors -/
namespace Atr

/-! ### parse after encode -/

theorem encodeFlag_lt (d : ADirent) : d.encodeFlag < 256 := by
  unfold ADirent.encodeFlag
  have : ∀ a b c e f g k : Bool, (a.toNat ||| (2 * b.toNat) ||| (4 * c.toNat) ||| (0x10 * e.toNat)
    ||| (0x20 * f.toNat) ||| (0x40 * g.toNat) ||| (0x80 * k.toNat)) < 256 := by decide
  exact this ..

theorem encodeFlag_bits (d : ADirent) :
    d.encodeFlag.testBit 0 = d.openedOutput ∧ d.encodeFlag.testBit 1 = d.dos2 ∧ d.encodeFlag.testBit 2 = d.mydos ∧
    d.encodeFlag.testBit 3 = false ∧
    d.encodeFlag.testBit 4 = d.isDir ∧ d.encodeFlag.testBit 5 = d.locked ∧ d.encodeFlag.testBit 6 = d.inUse ∧
    d.encodeFlag.testBit 7 = d.deleted := by
  unfold ADirent.encodeFlag
  have : ∀ a b c e f g k : Bool, let n := (a.toNat ||| (2 * b.toNat) ||| (4 * c.toNat) ||| (0x10 * e.toNat)
    ||| (0x20 * f.toNat) ||| (0x40 * g.toNat) ||| (0x80 * k.toNat));
    n.testBit 0 = a ∧ n.testBit 1 = b ∧ n.testBit 2 = c ∧ n.testBit 3 = false ∧ n.testBit 4 = e ∧ n.testBit 5 = f ∧
    n.testBit 6 = g ∧ n.testBit 7 = k := by decide
  exact this ..

@[simp] theorem length_encode (d : ADirent) : d.encode.length = 16 := by
  simp [ADirent.encode]

theorem exists8 {l : Bytes} (h : l.length = 8) : ∃ a b c d e f g k, l = [a, b, c, d, e, f, g, k] := by
  match l, h with
  | [a, b, c, d, e, f, g, k], _ => exact ⟨a, b, c, d, e, f, g, k, rfl⟩

theorem exists3 {l : Bytes} (h : l.length = 3) : ∃ a b c, l = [a, b, c] := by
  match l, h with
  | [a, b, c], _ => exact ⟨a, b, c, rfl⟩

theorem exists16 {l : Bytes} (h : l.length = 16) :
    ∃ a b c d e f g k a' b' c' d' e' f' g' k', l = [a, b, c, d, e, f, g, k, a', b', c', d', e', f', g', k'] := by
  match l, h with
  | [a, b, c, d, e, f, g, k, a', b', c', d', e', f', g', k'], _ =>
    exact ⟨a, b, c, d, e, f, g, k, a', b', c', d', e', f', g', k', rfl⟩

/-- what is read back from an encoded entry -/
def ADirent.reread (h : AHeader) (i : Nat) (d : ADirent) : ADirent :=
  let d' : ADirent :=
    { fileNum := i, flag := UInt8.ofNat d.encodeFlag, openedOutput := d.openedOutput, dos2 := d.dos2, mydos := d.mydos,
      isDir := d.isDir, locked := d.locked, inUse := d.inUse, deleted := d.deleted, numSectors := d.numSectors % 65536,
      startingSector := d.startingSector % 65536, basename := rstripWs (rstripNul (encS 8 d.basename)),
      ext := rstripWs (rstripNul (encS 3 d.ext)) }
  { d' with isSane := d'.sanityCheck h }

theorem parse_encode (h : AHeader) (i : Nat) (d : ADirent) : ADirent.parse h i d.encode = .ok (d.reread h i) := by
  obtain ⟨a0, a1, a2, a3, a4, a5, a6, a7, ha⟩ := exists8 (length_encS 8 d.basename)
  obtain ⟨e0, e1, e2, he⟩ := exists3 (length_encS 3 d.ext)
  obtain ⟨b0, b1, b2, _, b4, b5, b6, b7⟩ := encodeFlag_bits d
  have hf : (UInt8.ofNat d.encodeFlag).toNat = d.encodeFlag := by
    rw [toNat_ofNat, Nat.mod_eq_of_lt (encodeFlag_lt d)]
  have hn := le16_enc d.numSectors
  have hs := le16_enc (d.startingSector % 65536).toNat
  have hs2 : ((d.startingSector % 65536).toNat % 65536 : Nat) = (d.startingSector % 65536).toNat := by omega
  have hs3 : (((d.startingSector % 65536).toNat : Nat) : Int) = d.startingSector % 65536 := by omega
  simp only [ADirent.encode, ADirent.reread, ha, he, enc16, List.cons_append, List.nil_append, ADirent.parse, hf, b0, b1, b2,
    b4, b5, b6, b7, hn, hs, hs2, hs3]

theorem parse_ok {h : AHeader} {i : Nat} {b : Bytes} {d : ADirent} (hp : ADirent.parse h i b = .ok d) :
    b.length = 16 ∧ d.fileNum = i ∧ b.head? = some d.flag ∧ d.inUse = d.flag.toNat.testBit 6 ∧
    d.deleted = d.flag.toNat.testBit 7 := by
  unfold ADirent.parse at hp
  split at hp
  · injection hp with hp
    subst hp
    simp
  · simp at hp

theorem parse_total (h : AHeader) (i : Nat) (b : Bytes) (hb : b.length = 16) : ∃ d, ADirent.parse h i b = .ok d := by
  obtain ⟨a, b', c, d, e, f, g, k, a', b'', c', d', e', f', g', k', rfl⟩ := exists16 hb
  exact ⟨_, rfl⟩

/-! ### scanning -/

/-- a terminated rest of a directory -/
theorem scanDir_term (h : AHeader) : ∀ (n : Nat) (rest : List Bytes),
    (∀ e, rest.head? = some e → e.length = 16 ∧ e.head? = some 0) → scanDir h n rest = .ok [] := by
  intro n rest hr
  cases rest with
  | nil => rfl
  | cons e rest =>
    obtain ⟨h1, h2⟩ := hr e rfl
    obtain ⟨d, hd⟩ := parse_total h n e h1
    have := parse_ok hd
    have hf : d.flag = 0 := by
      have := this.2.2.1; rw [h2] at this; simpa using this.symm
    have hi : d.inUse = false := by
      rw [this.2.2.2.1, hf]; decide
    simp [scanDir, hd, hf, hi]

/-- entries that stay: each raw entry parses to the given entry and is not a terminator -/
theorem scanDir_append (h : AHeader) : ∀ (raw : List Bytes) (ds : List ADirent) (n : Nat) (rest : List Bytes),
    raw.length = ds.length →
    (∀ i r d, raw[i]? = some r → ds[i]? = some d → ADirent.parse h (n + i) r = .ok d ∧ (d.inUse = true ∨ d.flag ≠ 0)) →
    (∀ e, rest.head? = some e → e.length = 16 ∧ e.head? = some 0) → scanDir h n (raw ++ rest) = .ok ds := by
  intro raw
  induction raw with
  | nil =>
    intro ds n rest hl _ hr
    have : ds = [] := by simpa using hl.symm
    rw [this]
    exact scanDir_term h n rest hr
  | cons r raw ih =>
    intro ds n rest hl hp hr
    match ds, hl with
    | d :: ds, hl =>
      have h0 := hp 0 r d rfl rfl
      have ht : (!d.inUse && d.flag == 0) = false := by
        rcases h0.2 with h | h <;> simp [h]
      have := ih ds (n + 1) rest (by simpa using hl) (fun i r' d' hr' hd' => by
        have := hp (i + 1) r' d' (by simpa using hr') (by simpa using hd')
        rwa [show n + 1 + i = n + (i + 1) by omega]) hr
      simp only [List.cons_append, scanDir]
      rw [show n = n + 0 by omega, h0.1]
      simp [ht, this]

theorem scanDir_ok {h : AHeader} : ∀ {raw : List Bytes} {n : Nat} {ds : List ADirent}, scanDir h n raw = .ok ds →
    ds.length ≤ raw.length ∧ ∀ i d, ds[i]? = some d → ∃ r, raw[i]? = some r ∧ ADirent.parse h (n + i) r = .ok d ∧
      (d.inUse = true ∨ d.flag ≠ 0) := by
  intro raw
  induction raw with
  | nil => intro n ds hs; simp [scanDir] at hs; subst hs; simp
  | cons r raw ih =>
    intro n ds hs
    simp only [scanDir] at hs
    cases hp : ADirent.parse h n r with
    | error e => simp [hp] at hs
    | ok d =>
      simp only [hp] at hs
      cases ht : (!d.inUse && d.flag == 0) with
      | true => simp [ht] at hs; subst hs; simp
      | false =>
        simp only [ht] at hs
        cases hq : scanDir h (n + 1) raw with
        | error e => simp [hq] at hs
        | ok ds' =>
          simp [hq] at hs; subst hs
          obtain ⟨h1, h2⟩ := ih hq
          refine ⟨by simp; omega, ?_⟩
          intro i d' hd'
          cases i with
          | zero =>
            simp at hd'; subst hd'
            refine ⟨r, rfl, hp, ?_⟩
            cases hu : d.inUse <;> simp [hu] at ht ⊢
            exact ht
          | succ i =>
            obtain ⟨r', h3, h4, h5⟩ := h2 i d' (by simpa using hd')
            exact ⟨r', by simpa using h3, by rwa [show n + (i + 1) = n + 1 + i by omega], h5⟩

/-! ### directory sectors -/

/-- state of the directory encoder after storing `l` (flattened) -/
structure EncSt (ss : Nat) (st : List WSector × WSector) (l : Bytes) : Prop where
  full : ∀ w ∈ st.1, w.data.length = ss
  size : st.2.size = ss
  len : st.2.data.length = ss
  ptr : st.2.ptr ≤ ss
  mod : 16 ∣ st.2.ptr
  stored : (st.1.flatMap (·.data)) ++ st.2.data.take st.2.ptr = l
  zero : st.2.data.drop st.2.ptr = List.replicate (ss - st.2.ptr) 0

theorem EncSt.store {ss : Nat} (h16 : 16 ∣ ss) (hss : 0 < ss) {st : List WSector × WSector} {l d : Bytes} (e : EncSt ss st l)
    (hd : d.length = 16) : EncSt ss (storeEncoded (WSector.blank ss) st d) (l ++ d) ∧
      0 < (storeEncoded (WSector.blank ss) st d).2.ptr := by
  obtain ⟨done, cur⟩ := st
  obtain ⟨full, size, len, ptr, mod, stored, zero⟩ := e
  simp only at full size len ptr mod stored zero
  have hle : 16 ≤ ss := Nat.le_of_dvd hss h16
  by_cases hf : cur.ptr = ss
  · have ha : cur.addData d = (cur, d) := addData_full cur d (by omega) (by omega) (by omega)
    have hb := addData_fits (WSector.blank ss) d (by simp [WSector.blank]; omega)
    have hs : storeEncoded (WSector.blank ss) (done, cur) d =
        (done ++ [cur], { WSector.blank ss with data := splice (WSector.blank ss).data 0 d, ptr := 0 + d.length, used := 0 + d.length }) := by
      unfold storeEncoded
      rw [storeEncodedFuel]
      simp only [ha, hd, show (16 : Nat) > 0 by omega, if_true]
      rw [storeEncodedFuel]
      simp only [hb]
      simp [WSector.blank, hd]
    rw [hs]
    refine ⟨⟨?_, rfl, ?_, ?_, ?_, ?_, ?_⟩, ?_⟩
    · intro w hw
      simp at hw
      rcases hw with hw | hw
      · exact full w hw
      · rw [hw]; exact len
    · simp [splice, WSector.blank]; omega
    · simp; omega
    · simp [hd]
    · have hc : cur.data.take cur.ptr = cur.data := List.take_of_length_le (by omega)
      rw [hc] at stored
      simp [splice, WSector.blank]
      rw [← List.append_assoc, stored]
    · simp [splice, WSector.blank]
    · simp [hd]
  · have hfit : cur.ptr + 16 ≤ ss := by
      obtain ⟨a, ha⟩ := mod; obtain ⟨c, hc⟩ := h16; omega
    have ha := addData_fits cur d (by omega)
    have hs : storeEncoded (WSector.blank ss) (done, cur) d =
        (done, { cur with data := splice cur.data cur.ptr d, ptr := cur.ptr + d.length, used := cur.used + d.length }) := by
      unfold storeEncoded
      rw [storeEncodedFuel]
      simp [ha]
    rw [hs]
    have htk : (List.take cur.ptr cur.data).length = cur.ptr := by simp; omega
    refine ⟨⟨full, size, ?_, ?_, ?_, ?_, ?_⟩, ?_⟩
    · rw [length_splice _ _ _ (by omega)]; exact len
    · simp; omega
    · simp only [hd]; obtain ⟨a, ha⟩ := mod; exact ⟨a + 1, by omega⟩
    · simp only [splice]
      rw [← stored, List.append_assoc, List.append_assoc, List.take_append]
      rw [htk, List.take_of_length_le (by rw [htk]; omega)]
      congr 2
      rw [List.take_append]
      simp
    · simp only [splice]
      rw [List.append_assoc, List.drop_append, htk, List.drop_eq_nil_of_le (by rw [htk]; omega), List.drop_append]
      simp
      rw [← List.drop_drop, zero, List.drop_replicate]
      congr 1; omega
    · simp [hd]

theorem encSt_foldl {ss : Nat} (h16 : 16 ∣ ss) (hss : 0 < ss) : ∀ (encs : List Bytes) (st : List WSector × WSector) (l : Bytes),
    EncSt ss st l → (∀ d ∈ encs, d.length = 16) →
    EncSt ss (encs.foldl (storeEncoded (WSector.blank ss)) st) (l ++ encs.flatten) ∧
    (encs ≠ [] → 0 < (encs.foldl (storeEncoded (WSector.blank ss)) st).2.ptr) := by
  intro encs
  induction encs with
  | nil => intro st l e _; simpa using e
  | cons d encs ih =>
    intro st l e hd
    have h1 := e.store h16 hss (hd d (by simp))
    have h2 := ih _ _ h1.1 (fun x hx => hd x (by simp [hx]))
    rw [List.foldl_cons, List.flatten_cons, ← List.append_assoc]
    refine ⟨h2.1, fun _ => ?_⟩
    by_cases he : encs = []
    · subst he; simpa using h1.2
    · exact h2.2 he

/-- the directory sectors hold the encoded entries followed by zeros -/
theorem calcSectors_spec {ss : Nat} (h16 : 16 ∣ ss) (hss : 0 < ss) (encs : List Bytes) (hd : ∀ d ∈ encs, d.length = 16) :
    ∃ z, z < ss ∧ (calcSectors (WSector.blank ss) encs).flatMap (·.data) = encs.flatten ++ List.replicate z 0 ∧
      (∀ w ∈ calcSectors (WSector.blank ss) encs, w.data.length = ss) ∧
      (calcSectors (WSector.blank ss) encs).length * ss = 16 * encs.length + z := by
  have e0 : EncSt ss ([], WSector.blank ss) [] := by
    refine ⟨by simp, rfl, by simp [WSector.blank], by simp [WSector.blank], by simp [WSector.blank], by simp [WSector.blank], by simp [WSector.blank]⟩
  obtain ⟨e1, e2⟩ := encSt_foldl h16 hss encs _ _ e0 hd
  have hlen : ∀ ws : List WSector, (∀ w ∈ ws, w.data.length = ss) → (ws.flatMap (·.data)).length = ws.length * ss := by
    intro ws
    induction ws with
    | nil => simp
    | cons w ws ih =>
      intro h
      rw [List.flatMap_cons, List.length_append, ih (fun x hx => h x (by simp [hx])), h w (by simp), List.length_cons, Nat.add_mul]
      omega
  have hfl : encs.flatten.length = 16 * encs.length := by
    clear e1 e2 e0
    induction encs with
    | nil => simp
    | cons a encs ih => simp [hd a (by simp), ih (fun x hx => hd x (by simp [hx]))]; omega
  by_cases he : encs = []
  · subst he
    refine ⟨0, hss, ?_, ?_, ?_⟩ <;> simp [calcSectors, WSector.blank]
  · have hp := e2 he
    have hc : calcSectors (WSector.blank ss) encs =
        (encs.foldl (storeEncoded (WSector.blank ss)) ([], WSector.blank ss)).1 ++
        [(encs.foldl (storeEncoded (WSector.blank ss)) ([], WSector.blank ss)).2] := by
      unfold calcSectors
      generalize encs.foldl (storeEncoded (WSector.blank ss)) ([], WSector.blank ss) = st at *
      obtain ⟨done, cur⟩ := st
      simp at hp
      simp [show cur.ptr ≠ 0 by omega]
    rw [hc]
    generalize encs.foldl (storeEncoded (WSector.blank ss)) ([], WSector.blank ss) = st at *
    have hflat : (st.1 ++ [st.2]).flatMap (·.data) = encs.flatten ++ List.replicate (ss - st.2.ptr) 0 := by
      rw [List.flatMap_append, ← e1.zero]
      have := e1.stored
      simp at this
      rw [← this, List.append_assoc]
      simp
    have hall : ∀ w ∈ st.1 ++ [st.2], w.data.length = ss := by
      intro w hw
      simp at hw
      rcases hw with hw | hw
      · exact e1.full w hw
      · rw [hw]; exact e1.len
    refine ⟨ss - st.2.ptr, by omega, hflat, hall, ?_⟩
    rw [← hlen _ hall, hflat]
    simp [hfl]

theorem numberDirSectors_map (ws : List WSector) : ∀ n, (numberDirSectors n ws).map (·.num) = List.range' n ws.length ∧
    (numberDirSectors n ws).map (·.data) = ws.map (·.data) := by
  induction ws with
  | nil => intro n; simp [numberDirSectors]
  | cons w ws ih =>
    intro n
    obtain ⟨h1, h2⟩ := ih (n + 1)
    simp [numberDirSectors, h1, h2, List.range'_succ]

/-! ### raw entries -/

/-- the sixteen-byte entries of the eight directory sectors -/
def rawEntries (h : AHeader) (b : Bytes) : List Bytes :=
  chunks 16 (slice b (h.dpos 361) (h.dpos 361 + 8 * h.sectorSize))

theorem chunks_drop {α} (n : Nat) (hn : 0 < n) : ∀ (k : Nat) (l : List α), chunks n (l.drop (n * k)) = (chunks n l).drop k := by
  intro k
  induction k with
  | zero => intro l; simp
  | succ k ih =>
    intro l
    by_cases hl : l = []
    · simp [hl]
    · rw [chunks_cons n hn l hl, List.drop_succ_cons, ← ih, List.drop_drop]
      congr 2; rw [Nat.mul_add]; omega

theorem chunks_replicate_mem (n k : Nat) (hn : 0 < n) (hd : n ∣ k) : ∀ e ∈ chunks n (List.replicate k (0 : UInt8)),
    e.length = n ∧ e.head? = some 0 := by
  intro e he
  have h1 := mem_chunks_length_eq n hn (List.replicate k 0) (by simpa using hd) e he
  refine ⟨h1, ?_⟩
  have : ∀ x ∈ e, x = 0 := by
    intro x hx
    have : x ∈ (chunks n (List.replicate k (0 : UInt8))).flatten := List.mem_flatten.mpr ⟨e, he, hx⟩
    rw [chunks_flatten n hn] at this
    exact (List.mem_replicate.mp this).2
  cases e with
  | nil => simp at h1; omega
  | cons a e => simp [this a (by simp)]

/-- Directory area after writing new directory sectors: the new entries, zeros to the end of the sector, then the old
entries. -/
theorem rawEntries_rewritten {h : AHeader} {b b' : Bytes} (g : h.Geom b.length) (g' : h.Geom b'.length)
    (hss : h.sectorSize = 128 ∨ h.sectorSize = 256) (hmax : 368 ≤ h.maxSectors) (hni : h.numInitialSectors ≤ 3)
    (encs : List Bytes) (hd : ∀ d ∈ encs, d.length = 16) (hfit : 16 * encs.length ≤ 8 * h.sectorSize)
    (hnew : ∀ w ∈ numberDirSectors 361 (calcSectors (WSector.blank h.sectorSize) encs), sec h b' w.num = w.data)
    (hold : ∀ s, 361 ≤ s → s ≤ 368 →
      s ∉ (numberDirSectors 361 (calcSectors (WSector.blank h.sectorSize) encs)).map (·.num) → sec h b' s = sec h b s) :
    (calcSectors (WSector.blank h.sectorSize) encs).length ≤ 8 ∧ (∀ e ∈ rawEntries h b, e.length = 16) ∧
    ∃ k zs, encs.length ≤ k ∧ 16 * k % h.sectorSize = 0 ∧ 16 * k < 16 * encs.length + h.sectorSize ∧ zs.length = k - encs.length ∧
      (∀ e ∈ zs, e.length = 16 ∧ e.head? = some 0) ∧ rawEntries h b' = encs ++ (zs ++ (rawEntries h b).drop k) := by
  have h16 : 16 ∣ h.sectorSize := by rcases hss with h | h <;> rw [h] <;> decide
  have hpos : 0 < h.sectorSize := by rcases hss with h | h <;> omega
  obtain ⟨z, hz, hflat, hall, hcount⟩ := calcSectors_spec h16 hpos encs hd
  obtain ⟨hnums, hdatas⟩ := numberDirSectors_map (calcSectors (WSector.blank h.sectorSize) encs) 361
  generalize hws : calcSectors (WSector.blank h.sectorSize) encs = ws at *
  have hq : ws.length ≤ 8 := by
    rcases hss with h | h <;> simp only [h] at hcount hz hfit <;> omega
  refine ⟨hq, ?_⟩
  have hA : slice b' (h.dpos 361) (h.dpos 361 + 8 * h.sectorSize) =
      (encs.flatten ++ List.replicate z 0) ++
        (slice b (h.dpos 361) (h.dpos 361 + 8 * h.sectorSize)).drop (ws.length * h.sectorSize) := by
    rw [slice_sectors g' 8 361 (by omega) (by omega), slice_sectors g 8 361 (by omega) (by omega)]
    rw [show List.range' 361 8 = List.range' 361 ws.length ++ List.range' (361 + ws.length) (8 - ws.length) by
      have := List.range'_append (s := 361) (m := ws.length) (n := 8 - ws.length) (step := 1)
      rw [Nat.one_mul] at this
      rw [this]; congr 1; omega]
    rw [List.flatMap_append, List.flatMap_append]
    have e1 : (List.range' 361 ws.length).flatMap (sec h b') = encs.flatten ++ List.replicate z 0 := by
      rw [← hflat, List.flatMap_def, List.flatMap_def, ← hdatas, ← hnums, List.map_map]
      congr 1
      apply List.map_congr_left
      intro w hw
      exact hnew w hw
    have e2 : (List.range' (361 + ws.length) (8 - ws.length)).flatMap (sec h b') =
        (List.range' (361 + ws.length) (8 - ws.length)).flatMap (sec h b) := by
      rw [List.flatMap_def, List.flatMap_def]
      congr 1
      apply List.map_congr_left
      intro s hs
      rw [List.mem_range'_1] at hs
      apply hold s (by omega) (by omega)
      rw [hnums, List.mem_range'_1]; omega
    have e3 : ((List.range' 361 ws.length).flatMap (sec h b)).length = ws.length * h.sectorSize := by
      rw [← slice_sectors g ws.length 361 (by omega) (by omega), length_slice]
      have hds : h.DataSec 368 := ⟨by omega, hmax⟩
      have hf := hds.fit g
      have : h.dpos 368 = h.dpos 361 + 7 * h.sectorSize := dpos_add h 361 7 (by omega)
      have : ws.length * h.sectorSize ≤ 8 * h.sectorSize := Nat.mul_le_mul_right _ hq
      omega
    rw [e1, e2]
    congr 1
    rw [List.drop_append, e3, List.drop_eq_nil_of_le (by omega), Nat.sub_self]
    simp
  obtain ⟨c, hc⟩ := h16
  have hzc : 16 ∣ z := by
    rw [hc, ← Nat.mul_assoc, Nat.mul_comm _ 16, Nat.mul_assoc] at hcount
    omega
  have hrl : ∃ k, ws.length * h.sectorSize = 16 * k ∧ encs.length ≤ k ∧ 16 * k < 16 * encs.length + h.sectorSize := by
    refine ⟨encs.length + z / 16, ?_, by omega, ?_⟩ <;>
    · obtain ⟨y, hy⟩ := hzc
      omega
  obtain ⟨k, hk, hkl, hks⟩ := hrl
  have hzl : (chunks 16 (List.replicate z (0 : UInt8))).length = k - encs.length := by
    rw [length_chunks 16 (by omega), List.length_replicate]
    obtain ⟨y, hy⟩ := hzc
    omega
  have hold16 : ∀ e ∈ rawEntries h b, e.length = 16 := by
    refine mem_chunks_length_eq 16 (by omega) _ ?_
    rw [length_slice]
    have hds : h.DataSec 368 := ⟨by omega, hmax⟩
    have hf := hds.fit g
    have : h.dpos 368 = h.dpos 361 + 7 * h.sectorSize := dpos_add h 361 7 (by omega)
    exact ⟨8 * c, by omega⟩
  refine ⟨hold16, k, chunks 16 (List.replicate z 0), hkl, ?_, hks, hzl, chunks_replicate_mem 16 z (by omega) hzc, ?_⟩
  · rw [← hk]; exact Nat.mul_mod_left _ _
  · rw [rawEntries, hA, List.append_assoc, chunks_flatten_append 16 (by omega) _ _ hd]
    congr 1
    have : (chunks 16 (List.replicate z (0 : UInt8))).flatten = List.replicate z 0 := chunks_flatten 16 (by omega) _
    rw [← this, chunks_flatten_append 16 (by omega) _ _ (mem_chunks_length_eq 16 (by omega) _ (by simpa using hzc)), hk,
      chunks_drop 16 (by omega), this]
    rfl

/-- If no later sector begins with a used entry: the new entries, then an entry with flag 0, and again no later sector
begins with a used entry. -/
theorem rawEntries_write {h : AHeader} {b b' : Bytes} (g : h.Geom b.length) (g' : h.Geom b'.length)
    (hss : h.sectorSize = 128 ∨ h.sectorSize = 256) (hmax : 368 ≤ h.maxSectors) (hni : h.numInitialSectors ≤ 3)
    (encs : List Bytes) (hd : ∀ d ∈ encs, d.length = 16) (hfit : 16 * encs.length ≤ 8 * h.sectorSize)
    (hnew : ∀ w ∈ numberDirSectors 361 (calcSectors (WSector.blank h.sectorSize) encs), sec h b' w.num = w.data)
    (hold : ∀ s, 361 ≤ s → s ≤ 368 →
      s ∉ (numberDirSectors 361 (calcSectors (WSector.blank h.sectorSize) encs)).map (·.num) → sec h b' s = sec h b s)
    (hterm : ∀ i e, encs.length ≤ i → 16 * i % h.sectorSize = 0 → (rawEntries h b)[i]? = some e → e.head? = some 0) :
    (calcSectors (WSector.blank h.sectorSize) encs).length ≤ 8 ∧
    ∃ rest, rawEntries h b' = encs ++ rest ∧ (∀ e, rest.head? = some e → e.length = 16 ∧ e.head? = some 0) ∧
      ∀ i e, 16 * (encs.length + i) % h.sectorSize = 0 → rest[i]? = some e → e.head? = some 0 := by
  obtain ⟨q, hold16, k, zs, hkl, hkm, _, hzl, hz, he⟩ := rawEntries_rewritten g g' hss hmax hni encs hd hfit hnew hold
  refine ⟨q, zs ++ (rawEntries h b).drop k, he, ?_, ?_⟩
  · intro e he
    rw [List.head?_eq_getElem?] at he
    by_cases h0 : 0 < zs.length
    · rw [List.getElem?_append_left h0] at he
      exact hz e (List.mem_of_getElem? he)
    · rw [List.getElem?_append_right (by omega), List.getElem?_drop] at he
      refine ⟨hold16 e (List.mem_of_getElem? he), hterm _ e (by omega) ?_ he⟩
      rw [show k + (0 - zs.length) = k by omega]
      exact hkm
  · intro i e hi he
    by_cases h0 : i < zs.length
    · rw [List.getElem?_append_left h0] at he
      exact (hz e (List.mem_of_getElem? he)).2
    · rw [List.getElem?_append_right (by omega), List.getElem?_drop] at he
      refine hterm _ e (by omega) ?_ he
      rw [show k + (i - zs.length) = encs.length + i by omega]
      exact hi

theorem getDirectory_eq {m : AImg} (g : m.hdr.Geom m.bytes.length) (hmax : 368 ≤ m.hdr.maxSectors)
    (hni : m.hdr.numInitialSectors ≤ 3) {ds : List ADirent} (hs : scanDir m.hdr 0 (rawEntries m.hdr m.bytes) = .ok ds) :
    AImg.getDirectory m = (.ok ds, { m with files := ds.filter (·.inUse),
                                            allSane := m.allSane && (ds.filter (·.inUse)).all (·.isSane) }) := by
  unfold AImg.getDirectory
  rw [getSectors_eq g (by omega) (by omega) hmax]
  simp only [rawEntries] at hs
  simp only [show 368 - 361 + 1 = 8 by omega, hs]

end Atr
