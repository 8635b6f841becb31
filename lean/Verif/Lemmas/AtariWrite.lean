import Verif.Lemmas.AtariInv
/-! # Writing a file on a consistent volume -/
namespace Atr

/-! ### names -/

theorem rstripWs_spaces (l : Bytes) (n : Nat) : rstripWs (l ++ List.replicate n 32) = rstripWs l := by
  unfold rstripWs
  rw [List.reverse_append, List.reverse_replicate, List.dropWhile_append]
  have : (List.replicate n (32 : UInt8)).dropWhile isWs = [] := by
    induction n with
    | zero => rfl
    | succ n ih => rw [List.replicate_succ, List.dropWhile_cons]; simp [isWs] at ih ⊢
  simp [this]

theorem noTrail_of_not_mem {l : Bytes} (h : (0 : UInt8) ∉ l) : NoTrail (· == 0) l := by
  intro x hx
  have hm := List.mem_of_getLast? hx
  simp; intro h0; subst h0; exact h hm

theorem mem_rstripWs {l : Bytes} {x : UInt8} (h : x ∈ rstripWs l) : x ∈ l := by
  unfold rstripWs at h
  rw [List.mem_reverse] at h
  have := (List.dropWhile_suffix isWs (l := l.reverse)).subset h
  simpa using this

theorem length_rstripWs (l : Bytes) : (rstripWs l).length ≤ l.length := by
  unfold rstripWs
  have := (List.dropWhile_suffix isWs (l := l.reverse)).length_le
  simp at this ⊢; exact this

/-- a stored name field reads back as itself -/
theorem field_reread {n : Nat} {x : Bytes} (hl : x.length ≤ n) (h0 : (0 : UInt8) ∉ x) (hw : rstripWs x = x) :
    rstripWs (rstripNul (encS n x)) = x := by
  rw [encS, List.take_of_length_le hl, rstripNul_append _ _ (noTrail_of_not_mem h0), hw]

theorem rstripWs_idem (l : Bytes) : rstripWs (rstripWs l) = rstripWs l :=
  rstripWs_eq _ (noTrail_dropWhile isWs l)

theorem not_mem_takeWhile {p : UInt8 → Bool} {l : Bytes} (h : (0 : UInt8) ∉ l) : (0 : UInt8) ∉ l.takeWhile p :=
  fun hm => h ((List.takeWhile_prefix p).subset hm)

theorem not_mem_dropWhile {p : UInt8 → Bool} {l : Bytes} (h : (0 : UInt8) ∉ l) : (0 : UInt8) ∉ l.dropWhile p :=
  fun hm => h ((List.dropWhile_suffix p).subset hm)

/-- base name and extension as stored -/
def base83 (name : Bytes) : Bytes := rstripWs ((name.takeWhile (· != 0x2e)).take 8)
def ext83 (name : Bytes) : Bytes := rstripWs ((((name.dropWhile (· != 0x2e)).drop 1)).take 3)

theorem base83_props {name : Bytes} (h0 : (0 : UInt8) ∉ name) : (base83 name).length ≤ 8 ∧ (0 : UInt8) ∉ base83 name ∧
    rstripWs (base83 name) = base83 name := by
  refine ⟨?_, ?_, rstripWs_idem _⟩
  · have := length_rstripWs ((name.takeWhile (· != 0x2e)).take 8)
    simp at this; unfold base83; omega
  · intro hm
    exact not_mem_takeWhile h0 (List.mem_of_mem_take (mem_rstripWs hm))

theorem ext83_props {name : Bytes} (h0 : (0 : UInt8) ∉ name) : (ext83 name).length ≤ 3 ∧ (0 : UInt8) ∉ ext83 name ∧
    rstripWs (ext83 name) = ext83 name := by
  refine ⟨?_, ?_, rstripWs_idem _⟩
  · have := length_rstripWs ((((name.dropWhile (· != 0x2e)).drop 1)).take 3)
    rw [List.length_take] at this; unfold ext83; omega
  · intro hm
    exact not_mem_dropWhile h0 (List.mem_of_mem_drop (List.mem_of_mem_take (mem_rstripWs hm)))

/-- the new entry after it has been read back -/
def newEntry (name : Bytes) (idx count first : Nat) : ADirent :=
  { fileNum := idx, flag := 0x42, dos2 := true, inUse := true, numSectors := count, startingSector := first,
    basename := base83 name, ext := ext83 name }

theorem takeWhile_all {p : UInt8 → Bool} : ∀ {l : Bytes}, (∀ x ∈ l, p x = true) → l.takeWhile p = l := by
  intro l
  induction l with
  | nil => intro _; rfl
  | cons a l ih => intro h; rw [List.takeWhile_cons, if_pos (h a (by simp)), ih (fun x hx => h x (by simp [hx]))]

theorem setValues_eq (name : Bytes) (idx : Nat) : ADirent.setValues name idx =
    { fileNum := idx, dos2 := true, inUse := true, basename := padRight 8 ((name.takeWhile (· != 0x2e)).take 8),
      ext := if name.contains 0x2e then (name.dropWhile (· != 0x2e)).drop 1 else [32, 32, 32] } := by
  unfold ADirent.setValues
  cases hc : name.contains 0x2e with
  | true => simp
  | false =>
    have : name.takeWhile (· != 0x2e) = name := by
      apply takeWhile_all
      intro x hx; simp; intro he; subst he
      rw [← List.contains_iff_mem, hc] at hx; simp at hx
    simp [this]

theorem setValues_fields (name : Bytes) (idx : Nat) (h0 : (0 : UInt8) ∉ name) :
    rstripWs (rstripNul (encS 8 (ADirent.setValues name idx).basename)) = base83 name ∧
    rstripWs (rstripNul (encS 3 (ADirent.setValues name idx).ext)) = ext83 name := by
  rw [setValues_eq]
  constructor
  · simp only
    generalize hx : (name.takeWhile (· != 0x2e)).take 8 = x
    have hl : x.length ≤ 8 := by rw [← hx, List.length_take]; omega
    have hn : (0 : UInt8) ∉ x := by rw [← hx]; intro hm; exact not_mem_takeWhile h0 (List.mem_of_mem_take hm)
    have hpl : (padRight 8 x).length = 8 := by simp [padRight]; omega
    have : encS 8 (padRight 8 x) = padRight 8 x := by
      rw [encS, List.take_of_length_le (by omega), hpl]; simp
    rw [this, rstripNul_eq, padRight, rstripWs_spaces, base83, hx]
    apply noTrail_of_not_mem
    simp [padRight, hn]
  · simp only
    cases hc : name.contains 0x2e with
    | true =>
      simp only [if_true]
      generalize hx : (name.dropWhile (· != 0x2e)).drop 1 = x
      have hn : (0 : UInt8) ∉ x := by rw [← hx]; intro hm; exact not_mem_dropWhile h0 (List.mem_of_mem_drop hm)
      rw [ext83, hx, encS, show 3 - x.length = 3 - (x.take 3).length by rw [List.length_take]; omega, rstripNul_append]
      apply noTrail_of_not_mem
      intro hm; exact hn (List.mem_of_mem_take hm)
    | false =>
      have : ext83 name = [] := by
        unfold ext83
        have : name.dropWhile (· != 0x2e) = [] := by
          have h1 : name.takeWhile (· != 0x2e) = name := by
            apply takeWhile_all
            intro x hx; simp; intro he; subst he
            rw [← List.contains_iff_mem, hc] at hx; simp at hx
          have := List.takeWhile_append_dropWhile (p := (· != (0x2e : UInt8))) (l := name)
          rw [h1] at this
          simpa using this
        rw [this]; rfl
      rw [this]; simp only [Bool.false_eq_true, if_false]; decide

/-- the new entry as built by `write_file` -/
def rawEntry (name : Bytes) (idx count first : Nat) : ADirent :=
  { ADirent.setValues name idx with numSectors := count, startingSector := (first : Int) }

theorem newEntry_reread {h : AHeader} {n : Nat} (g : h.Geom n) (name : Bytes) (idx count first : Nat) (h0 : (0 : UInt8) ∉ name)
    (hc : count ≤ h.maxSectors) (hc2 : count < 65536) (hf1 : 1 ≤ first) (hf2 : first ≤ h.maxSectors) (hf3 : first < 65536) :
    (rawEntry name idx count first).reread h idx =
      newEntry name idx count first ∧
    (newEntry name idx count first).reread h idx = newEntry name idx count first := by
  obtain ⟨f1, f2⟩ := setValues_fields name idx h0
  have hv : h.sectorIsValid first = true := (AHeader.sectorIsValid_iff g first).mpr ⟨hf1, hf2⟩
  have hm : count % 65536 = count := Nat.mod_eq_of_lt hc2
  have hm2 : (first : Int) % 65536 = first := by omega
  have e1 : ∀ d : ADirent, d.inUse = true → d.numSectors = count → d.startingSector = first → d.sanityCheck h = true := by
    intro d h1 h2 h3
    simp [ADirent.sanityCheck, h1, h2, h3, hv]; omega
  have b := base83_props h0
  have e := ext83_props h0
  constructor
  · unfold ADirent.reread rawEntry
    simp only [f1, f2, hm, hm2]
    rw [setValues_eq, e1 _ rfl rfl rfl]
    simp [newEntry, ADirent.encodeFlag]
  · unfold ADirent.reread
    simp only [newEntry, field_reread b.1 b.2.1 b.2.2, field_reread e.1 e.2.1 e.2.2, hm, hm2]
    rw [e1 _ rfl rfl rfl]
    simp [ADirent.encodeFlag]

theorem filename_newEntry (name : Bytes) (idx count first : Nat) :
    (newEntry name idx count first).filename = norm83 name := rfl

/-! ### slots -/

theorem getFreeDirent_spec (ds : List ADirent) : getFreeDirent ds ≤ ds.length ∧
    (∀ d, ds[getFreeDirent ds]? = some d → d.inUse = false) ∧
    (∀ i d, i < getFreeDirent ds → ds[i]? = some d → d.inUse = true) := by
  unfold getFreeDirent
  cases hf : ds.findIdx? (fun d => !d.inUse) with
  | none =>
    rw [List.findIdx?_eq_none_iff] at hf
    simp only
    refine ⟨Nat.le_refl _, by simp, ?_⟩
    intro i d _ hd
    have := hf d (List.mem_of_getElem? hd)
    simpa using this
  | some k =>
    simp only
    rw [List.findIdx?_eq_some_iff_getElem] at hf
    obtain ⟨h1, h2, h3⟩ := hf
    refine ⟨by omega, ?_, ?_⟩
    · intro d hd
      rw [List.getElem?_eq_getElem h1] at hd
      injection hd with hd; subst hd; simpa using h2
    · intro i d hi hd
      have := h3 i hi
      rw [List.getElem?_eq_getElem (by omega)] at hd
      injection hd with hd; subst hd; simpa using this

theorem getElem?_setDirent {ds : List ADirent} {k : Nat} (hk : k ≤ ds.length) (e : ADirent) (i : Nat) :
    (setDirent ds k e)[i]? = if i = k then some e else ds[i]? := by
  unfold setDirent
  split
  · rw [List.getElem?_set]; grind
  · rw [List.getElem?_append]; grind

theorem length_setDirent {ds : List ADirent} {k : Nat} (hk : k ≤ ds.length) (e : ADirent) :
    (setDirent ds k e).length = max ds.length (k + 1) := by
  unfold setDirent; split <;> simp <;> omega

theorem setDirent_eq {ds : List ADirent} {k : Nat} (hk : k ≤ ds.length) (e : ADirent) :
    setDirent ds k e = ds.take k ++ e :: ds.drop (k + 1) := by
  apply List.ext_getElem?
  intro i
  rw [getElem?_setDirent hk, List.getElem?_append, List.length_take, List.getElem?_take]
  by_cases h1 : i < k
  · simp [show i ≠ k by omega, show i < min k ds.length by omega, h1]
  · rw [if_neg (show ¬ i < min k ds.length by omega), show min k ds.length = k by omega]
    by_cases h2 : i = k
    · simp [h2]
    · obtain ⟨j, hj⟩ : ∃ j, i - k = j + 1 := ⟨i - k - 1, by omega⟩
      rw [if_neg h2, hj, List.getElem?_cons_succ, List.getElem?_drop]
      congr 1; omega

/-- the listing gains one entry at the place of the free slot -/
theorem filter_setDirent {ds : List ADirent} {e : ADirent} (he : e.inUse = true) :
    (setDirent ds (getFreeDirent ds) e).filter (·.inUse) =
      (ds.take (getFreeDirent ds)).filter (·.inUse) ++ e :: (ds.drop (getFreeDirent ds + 1)).filter (·.inUse) ∧
    ds.filter (·.inUse) =
      (ds.take (getFreeDirent ds)).filter (·.inUse) ++ (ds.drop (getFreeDirent ds + 1)).filter (·.inUse) := by
  obtain ⟨h1, h2, _⟩ := getFreeDirent_spec ds
  generalize getFreeDirent ds = k at *
  constructor
  · rw [setDirent_eq h1, List.filter_append, List.filter_cons_of_pos (by simpa using he)]
  · conv => lhs; rw [← List.take_append_drop k ds]
    rw [List.filter_append]
    congr 1
    cases hd : ds.drop k with
    | nil =>
      have : ds.drop (k + 1) = [] := by
        rw [List.drop_eq_nil_iff] at *; omega
      rw [this]
    | cons x l =>
      have hx : ds[k]? = some x := by
        have := congrArg (fun z => z[0]?) hd
        simpa [List.getElem?_drop] using this
      have hl : ds.drop (k + 1) = l := by
        have := congrArg (List.drop 1) hd
        simpa [List.drop_drop] using this
      rw [List.filter_cons_of_neg (by simpa using h2 x hx), hl]

/-! ### free pool -/

theorem freeFrom_append (a b : List Bool) : ∀ k, freeFrom k (a ++ b) = freeFrom k a ++ freeFrom (k + a.length) b := by
  induction a with
  | nil => intro k; simp [freeFrom]
  | cons x a ih =>
    intro k
    cases x <;> simp [freeFrom, ih, Nat.add_assoc, Nat.add_comm 1]

theorem freeFrom_replicate_false (n : Nat) : ∀ k, freeFrom k (List.replicate n false) = [] := by
  induction n with
  | zero => intro k; rfl
  | succ n ih => intro k; rw [List.replicate_succ]; exact ih (k + 1)

theorem freeList_pad (a : List Bool) (n : Nat) : freeList (a ++ List.replicate n false) = freeList a := by
  rw [freeList, freeFrom_append, freeFrom_replicate_false]; simp [freeList]

/-- a map with nothing free from 720 on -/
theorem freeList_take {m : List Bool} (hm : m.length = 1280) (h : ∀ i, 720 ≤ i → i < 1280 → m[i]? = some false) :
    freeList (m.take 720) = freeList m := by
  have : m = m.take 720 ++ List.replicate 560 false := by
    apply List.ext_getElem?
    intro i
    rw [List.getElem?_append, List.getElem?_take]
    by_cases h1 : i < 720
    · simp [h1, hm]
    · rw [if_neg (by simp; omega)]
      by_cases h2 : i < 1280
      · rw [h i (by omega) h2, List.getElem?_replicate, if_pos (by rw [List.length_take]; omega)]
      · rw [List.getElem?_eq_none (by omega), List.getElem?_eq_none (by rw [List.length_replicate, List.length_take]; omega)]
  conv => rhs; rw [this]
  rw [freeList_pad]

theorem getDirectory_mount {h b ds} (c : Loose h b ds) :
    AImg.getDirectory (mountRec h b ds) = (.ok ds, mountRec h b ds) := by
  rw [getDirectory_eq (m := mountRec h b ds) c.geom c.size c.geom.ni c.dir]
  have hall : (ds.filter (·.inUse)).all (·.isSane) = true := by
    rw [List.all_eq_true]
    intro d hd
    rw [List.mem_filter] at hd
    exact c.sane hd.1 (by simpa using hd.2)
  simp [mountRec, hall]

/-! ### the write -/

/-- pieces of the data, one per sector -/
def pieces (h : AHeader) (data : Bytes) : List Bytes := chunks (h.sectorSize - 3) data

/-- bitmap after reserving `order` -/
structure Reserved (h : AHeader) (b : Bytes) (k : Nat) (order : List Nat) (map' : List Bool) : Prop where
  res : reserve k (freeMap h b ++ List.replicate 560 false) = .ok (order, map')
  order_eq : order = (freePool h b).take k
  len : order.length = k
  mlen : map'.length = 1280
  bits : ∀ i : Nat, map'[i]? = if i ∈ order then some false else (freeMap h b ++ List.replicate 560 false)[i]?
  rest : freeList (map'.take 720) = (freePool h b).drop k

theorem reserved_spec {h b ds} (c : Loose h b ds) {k : Nat} (hk : k ≤ (freePool h b).length) :
    ∃ order map', Reserved h b k order map' := by
  have hm := length_freeMap c.geom c.sectorSize c.size
  have hf : freeList (freeMap h b ++ List.replicate 560 false) = freePool h b := freeList_pad _ _
  obtain ⟨order, map', hr⟩ := reserve_total k (freeMap h b ++ List.replicate 560 false) (by rw [hf]; exact hk)
  obtain ⟨r1, r2, r3, r4, r5, r6⟩ := reserve_ok hr
  rw [hf] at r1 r2
  have hl : map'.length = 1280 := by rw [r5, List.length_append, List.length_replicate, hm]
  refine ⟨order, map', hr, r1, r4, hl, r6, ?_⟩
  rw [freeList_take hl, r2]
  intro i h1 h2
  rw [r6]
  split
  · rfl
  · rw [List.getElem?_append_right (by omega), List.getElem?_replicate, if_pos (by omega)]

theorem Reserved.user {h b ds} (c : Loose h b ds) {k order map'} (r : Reserved h b k order map') :
    order.Nodup ∧ ∀ s ∈ order, UserSec h s ∧ s < 720 ∧ IsFree h b s := by
  have hm := length_freeMap c.geom c.sectorSize c.size
  rw [r.order_eq]
  refine ⟨(freeList_nodup _).sublist (List.take_sublist _ _), ?_⟩
  intro s hs
  have h1 := List.mem_of_mem_take hs
  have h2 : IsFree h b s := (mem_freeList _ _).mp h1
  refine ⟨c.free s h2, ?_, h2⟩
  have := (List.getElem?_eq_some_iff.mp h2).1
  omega

/-- effect of a successful write -/
structure Written (h : AHeader) (b b' : Bytes) (ds : List ADirent) (name data : Bytes) (order : List Nat) (map' : List Bool) : Prop where
  res : Reserved h b (pieces h data).length order map'
  body : AImg.writeBody name data (mountRec h b ds) = (.ok (), { mountRec h b ds with bytes := b' })
  comm : Committed h b b' (newVtoc h b map')
    (linkSectors WSector.setNextAtari (getFreeDirent ds) ((pieces h data).map (WSector.ofData h.sectorSize)) order)
    (calcDirSectors h (setDirent ds (getFreeDirent ds)
      (rawEntry name (getFreeDirent ds) (pieces h data).length (order.headD 0))))
  slots : (calcSectors (WSector.blank h.sectorSize) ((setDirent ds (getFreeDirent ds)
      (rawEntry name (getFreeDirent ds) (pieces h data).length (order.headD 0))).map ADirent.encode)).length ≤ 8

theorem pieces_props (h : AHeader) (data : Bytes) (hss : h.sectorSize = 128 ∨ h.sectorSize = 256) (hne : data ≠ []) :
    (∀ c ∈ pieces h data, 0 < c.length ∧ c.length ≤ h.sectorSize - 3) ∧ (pieces h data).flatten = data ∧ pieces h data ≠ [] := by
  have hp : 0 < h.sectorSize - 3 := by omega
  refine ⟨mem_chunks_length _ hp data, chunks_flatten _ hp data, ?_⟩
  rw [pieces, chunks_cons _ hp _ hne]; simp

theorem Loose.dirLen {h b ds} (c : Loose h b ds) : 16 * ds.length ≤ 8 * h.sectorSize := by
  have h1 := (scanDir_ok c.dir).1
  have hds : h.DataSec 368 := dataSec_of c.geom (by omega) c.size
  have hf := hds.fit c.geom
  have h2 : h.dpos 368 = h.dpos 361 + 7 * h.sectorSize := dpos_add h 361 7 (by have := c.geom.ni; omega)
  rw [rawEntries, length_chunks 16 (by omega), length_slice] at h1
  have := c.sectorSize
  omega

/-- the write, whenever the directory sectors have room for the entry -/
theorem writeBody_room {h b ds} (c : Loose h b ds) {name data : Bytes} (hne : data ≠ [])
    (hidx : 16 * (getFreeDirent ds + 1) ≤ 8 * h.sectorSize) (hk : (pieces h data).length ≤ (freePool h b).length) :
    ∃ b' order map', Written h b b' ds name data order map' := by
  have g := c.geom
  obtain ⟨order, map', r⟩ := reserved_spec c hk
  obtain ⟨und, uall⟩ := r.user c
  obtain ⟨p1, p2, p3⟩ := pieces_props h data c.sectorSize hne
  have d360 : h.DataSec 360 := dataSec_of g (by omega) (by have := c.size; omega)
  have hl360 := length_sec g d360
  have hpl : h.payloadBytes = (h.sectorSize : Int) - 3 := g.payload
  have hss := c.sectorSize
  have hb : buildSectors h data = .ok ((pieces h data).map (WSector.ofData h.sectorSize)) := by
    unfold buildSectors
    rw [if_neg hne, if_neg (by omega), show h.payloadBytes.toNat = h.sectorSize - 3 by omega]
    rfl
  obtain ⟨s360, e1, e2, e3⟩ := calcBitmap_eq (h := h) (m := mountRec h b ds) rfl g hss c.size r.mlen
  -- linked sectors
  obtain ⟨l1, l2⟩ := linkSectors_nums' (ss := h.sectorSize) (fn := getFreeDirent ds) (by omega) (pieces h data) order r.len.symm
    (fun x hx => (p1 x hx).2)
  generalize hsl : linkSectors WSector.setNextAtari (getFreeDirent ds) ((pieces h data).map (WSector.ofData h.sectorSize)) order = sl at l1 l2
  have hslu : ∀ w ∈ sl, UserSec h w.num ∧ w.data.length = h.sectorSize := by
    intro w hw
    refine ⟨?_, l2 w hw⟩
    have : w.num ∈ sl.map (·.num) := List.mem_map_of_mem hw
    rw [l1] at this
    exact (uall _ this).1
  have hlen_sl : sl.length = (pieces h data).length := by
    rw [← hsl, linkSectors_length]; simp
  have hfirst : firstSector sl = ((order.headD 0 : Nat) : Int) := by
    cases sl with
    | nil => simp at hlen_sl; exact absurd (List.length_eq_zero_iff.mp hlen_sl.symm) p3
    | cons w sl => rw [List.map_cons] at l1; rw [← l1]; rfl
  -- directory
  generalize hnd : rawEntry name (getFreeDirent ds) (pieces h data).length (order.headD 0) = nd
  obtain ⟨fs1, _, _⟩ := getFreeDirent_spec ds
  have hlen_ds : 16 * (setDirent ds (getFreeDirent ds) nd).length ≤ 8 * h.sectorSize := by
    rw [length_setDirent fs1]
    have := c.dirLen
    omega
  have h16 : 16 ∣ h.sectorSize := by rcases hss with h | h <;> rw [h] <;> decide
  obtain ⟨z, q1, q2, q3, q4⟩ := calcSectors_spec h16 (by omega) ((setDirent ds (getFreeDirent ds) nd).map ADirent.encode)
    (by intro x hx; obtain ⟨d, _, rfl⟩ := List.mem_map.mp hx; simp)
  generalize hcs : calcSectors (WSector.blank h.sectorSize) ((setDirent ds (getFreeDirent ds) nd).map ADirent.encode) = ws at q2 q3 q4
  have hq : ws.length ≤ 8 := by
    rw [List.length_map] at q4
    rcases hss with h | h <;> simp only [h] at * <;> omega
  obtain ⟨w1, w2, w3, hcom⟩ := commit_spec (s360 := s360) g hss c.size (length_newVtoc hl360 hss r.mlen) ⟨e1, e2⟩ hslu (by rw [l1]; exact und) q3 hq
  have hdirs : calcDirSectors h (setDirent ds (getFreeDirent ds) nd) = numberDirSectors 361 ws := by
    rw [calcDirSectors, hcs]
  refine ⟨commit h b (newVtoc h b map') sl s360 (numberDirSectors 361 ws), order, map', r, ?_, ?_, ?_⟩
  · have hfit := d360.fit g
    have hnv := length_newVtoc hl360 hss r.mlen
    have hlen1 := length_splice b (newVtoc h b map') (h.dpos 360) (by omega)
    have g1 : h.Geom (splice b (h.dpos 360) (newVtoc h b map')).length := by rw [hlen1]; exact g
    unfold AImg.writeBody
    rw [getDirectory_mount c]
    simp only
    have hb' : buildSectors (mountRec h b ds).hdr data = .ok ((pieces h data).map (WSector.ofData h.sectorSize)) := hb
    rw [hb']
    simp only
    rw [getVtocObject_eq c]
    simp only [List.length_map]
    rw [r.res]
    simp only
    rw [e3]
    simp only
    have hfn : (ADirent.setValues name (getFreeDirent ds)).fileNum = getFreeDirent ds := by
      unfold ADirent.setValues; split <;> rfl
    have hsl' : linkSectors WSector.setNextAtari (ADirent.setValues name (getFreeDirent ds)).fileNum
        ((pieces h data).map (WSector.ofData h.sectorSize)) order = sl := by rw [hfn]; exact hsl
    have hhdr : (mountRec h b ds).hdr = h := rfl
    have hbytes : (mountRec h b ds).bytes = b := rfl
    have hdirs' := hdirs
    rw [← hnd] at hdirs'
    simp only [rawEntry] at hdirs'
    simp only [hsl', hlen_sl, hfirst, hhdr, hbytes, hdirs']
    rw [writeSectors_eq sl _ g1 w1]
    simp only
    have g2 : h.Geom (writeAll h (splice b (h.dpos 360) (newVtoc h b map')) sl).length := by
      rw [length_writeAll _ _ g1 w1]; exact g1
    rw [writeSectors_eq [s360] _ g2 w2]
    simp only
    have g3 : h.Geom (writeAll h (writeAll h (splice b (h.dpos 360) (newVtoc h b map')) sl) [s360]).length := by
      rw [length_writeAll _ _ g2 w2]; exact g2
    rw [writeSectors_eq (numberDirSectors 361 ws) _ g3 w3]
    rw [commit, writeAll_append, writeAll_append]
  · rw [hnd, hdirs, hsl]; exact hcom
  · rw [hnd, hcs]; exact hq

theorem writeBody_ok {h b ds} (c : Loose h b ds) {name data : Bytes} (hne : data ≠ [])
    (hidx : getFreeDirent ds < 64) (hk : (pieces h data).length ≤ (freePool h b).length) :
    ∃ b' order map', Written h b b' ds name data order map' :=
  writeBody_room c hne (by have := c.sectorSize; omega) hk

end Atr
