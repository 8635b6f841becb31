import Verif.Lemmas.AtariWrite
/-! # Operations keep volumes consistent -/
namespace Atr

/-- directory and header part of consistency after a commit -/
theorem dir_after {h b b' ds v1 sl} (c : Consistent h b ds) {raw ds' : List ADirent}
    (comm : Committed h b b' v1 sl (calcDirSectors h raw))
    (hq : 16 * raw.length ≤ 8 * h.sectorSize)
    (hlen : raw.length = ds'.length) (hge : ds.length ≤ ds'.length)
    (hsl : ∀ w ∈ sl, UserSec h w.num)
    (hp : ∀ (i : Nat) (r d : ADirent), raw[i]? = some r → ds'[i]? = some d → ADirent.parse h i r.encode = .ok d ∧ (d.inUse = true ∨ d.flag ≠ 0)) :
    openHeader b' = .ok h ∧ scanDir h 0 (rawEntries h b') = .ok ds' ∧
    (∀ (i : Nat) (e : Bytes), ds'.length ≤ i → 16 * i % h.sectorSize = 0 → (rawEntries h b')[i]? = some e → e.head? = some 0) := by
  have g := c.geom
  have g' : h.Geom b'.length := by rw [comm.len]; exact g
  obtain ⟨_, rest, h1, h2, h3⟩ := rawEntries_write (b := b) (b' := b') g g' c.sectorSize c.size g.ni (raw.map ADirent.encode)
    (by intro x hx; obtain ⟨d, _, rfl⟩ := List.mem_map.mp hx; simp) (by simpa using hq) comm.dir
    (by
      intro s hs1 hs2 hs3
      apply comm.other s (dataSec_of g (by omega) (by have := c.size; omega)) (by omega) _ hs3
      intro hm
      obtain ⟨w, hw, rfl⟩ := List.mem_map.mp hm
      have := (hsl w hw).2.2.2
      omega)
    (by
      intro i e hi hm he
      apply c.term i e _ hm he
      rw [List.length_map] at hi; omega)
  refine ⟨?_, ?_, ?_⟩
  · rw [openHeader_congr comm.len comm.front]; exact c.opens
  · rw [h1]
    apply scanDir_append
    · simpa using hlen
    · intro i r d hr hd
      rw [List.getElem?_map] at hr
      cases hx : raw[i]? with
      | none => simp [hx] at hr
      | some x =>
        simp [hx] at hr
        have := hp i x d hx hd
        rw [Nat.zero_add, ← hr]; exact this
    · exact h2
  · intro i e hi hm he
    rw [h1, List.getElem?_append_right (by simp; omega), List.length_map] at he
    refine h3 _ e ?_ he
    rw [List.length_map, show raw.length + (i - raw.length) = i by omega]
    exact hm

/-- free map after a commit -/
theorem freeMap_after {h b b' ds map' sl dirs} (c : Loose h b ds) (comm : Committed h b b' (newVtoc h b map') sl dirs)
    (hm : map'.length = 1280) : freeMap h b' = map'.take 720 ∧ (sec h b' 360).head? = (sec h b 360).head? := by
  have g := c.geom
  have d360 : h.DataSec 360 := dataSec_of g (by omega) (by have := c.size; omega)
  obtain ⟨h1, h2⟩ := newVtoc_map (length_sec g d360) c.sectorSize hm
  unfold freeMap
  rw [comm.vtoc]
  exact ⟨h1, h2⟩

/-- sectors a commit leaves alone -/
theorem sec_after {h b b' ds v1 sl} (c : Loose h b ds) {raw : List ADirent}
    (comm : Committed h b b' v1 sl (calcDirSectors h raw))
    (hq : (calcSectors (WSector.blank h.sectorSize) (raw.map ADirent.encode)).length ≤ 8)
    {s : Nat} (hu : UserSec h s) (hs : s ∉ sl.map (·.num)) : sec h b' s = sec h b s := by
  apply comm.other s (hu.data c.geom) _ hs
  · rw [calcDirSectors, (numberDirSectors_map _ 361).1, List.mem_range'_1]
    have := hu.2.2.2; omega
  · have := hu.2.2.2; omega

theorem calcSectors_le {h b ds} (c : Loose h b ds) {raw : List ADirent} (hq : 16 * raw.length ≤ 8 * h.sectorSize) :
    (calcSectors (WSector.blank h.sectorSize) (raw.map ADirent.encode)).length ≤ 8 := by
  have hss := c.sectorSize
  have h16 : 16 ∣ h.sectorSize := by rcases hss with h | h <;> rw [h] <;> decide
  obtain ⟨z, q1, q2, q3, q4⟩ := calcSectors_spec h16 (by omega) (raw.map ADirent.encode)
    (by intro x hx; obtain ⟨d, _, rfl⟩ := List.mem_map.mp hx; simp)
  rw [List.length_map] at q4
  rcases hss with h | h <;> simp only [h] at * <;> omega

theorem nodup_bound {l : List Nat} {n : Nat} (hn : l.Nodup) (h : ∀ x ∈ l, 4 ≤ x ∧ x ≤ n) : l.length ≤ n := by
  have := nodup_length_le (n + 1) (0 :: l) (List.nodup_cons.mpr ⟨fun hc => by have := h 0 hc; omega, hn⟩) (by
    intro x hx
    rcases List.mem_cons.mp hx with rfl | hx
    · omega
    · have := h x hx; omega)
  simp at this; omega

/-- facts about the directory entry and chain of a freshly written file -/
structure NewFile (h : AHeader) (b' : Bytes) (ds : List ADirent) (name data : Bytes) (order : List Nat) (e : ADirent) : Prop where
  entry : e = newEntry name (getFreeDirent ds) (pieces h data).length (order.headD 0)
  parse : ADirent.parse h (getFreeDirent ds)
    (rawEntry name (getFreeDirent ds) (pieces h data).length (order.headD 0)).encode = .ok e
  stable : ADirent.parse h (getFreeDirent ds) e.encode = .ok e
  chain : ∃ l, e.readChain h b' = .ok l ∧ l.map (·.1) = order ∧ byteOrder l ≠ [] ∧ (∀ x ∈ l, x.2.2 ≤ h.sectorSize) ∧
    chainBytes h b' l = data

theorem newFile_spec {h b b' ds name data order map'} (c : Loose h b ds) (hne : data ≠ []) (h0 : (0 : UInt8) ∉ name)
    (hidx : getFreeDirent ds < 64) (w : Written h b b' ds name data order map') :
    ∃ e, NewFile h b' ds name data order e := by
  have g := c.geom
  have g' : h.Geom b'.length := by rw [w.comm.len]; exact g
  obtain ⟨und, uall⟩ := w.res.user c
  obtain ⟨p1, p2, p3⟩ := pieces_props h data c.sectorSize hne
  have hlen : (pieces h data).length = order.length := w.res.len.symm
  have hone : order ≠ [] := by
    intro he; rw [he] at hlen; exact p3 (List.length_eq_zero_iff.mp hlen)
  have hcount : order.length ≤ h.maxSectors := nodup_bound und (fun x hx => ⟨(uall x hx).1.1, (uall x hx).1.2.1⟩)
  have hc720 : order.length ≤ 720 := by
    have := nodup_length_le 720 order und (fun x hx => (uall x hx).2.1); exact this
  have hf : UserSec h (order.headD 0) ∧ order.headD 0 < 720 := by
    cases order with
    | nil => exact absurd rfl hone
    | cons n ns => exact ⟨(uall n (by simp)).1, (uall n (by simp)).2.1⟩
  obtain ⟨r1, r2⟩ := newEntry_reread g name (getFreeDirent ds) (pieces h data).length (order.headD 0) h0
    (by omega) (by omega) (by have := hf.1.1; omega) hf.1.2.1 (by omega)
  refine ⟨newEntry name (getFreeDirent ds) (pieces h data).length (order.headD 0), rfl, ?_, ?_, ?_⟩
  · rw [parse_encode, r1]
  · rw [parse_encode, r2]
  · obtain ⟨l1, l2⟩ := readLoop_linked (d := newEntry name (getFreeDirent ds) (pieces h data).length (order.headD 0))
      rfl hidx g' c.sectorSize (pieces h data) order [] (h.maxSectors + 1) hlen (fun x hx => (p1 x hx).2)
      (fun n hn => ⟨by have := (uall n hn).2.1; omega, by have := (uall n hn).1.1; omega, (uall n hn).1.data g⟩) und
      (by simp) (by simp) (by omega) hone (fun x hx => w.comm.file x hx)
    refine ⟨(order.zip (pieces h data)).map fun x => (x.1, h.dpos x.1, x.2.length), ?_, ?_, ?_, ?_, ?_⟩
    · have hst : (newEntry name (getFreeDirent ds) (pieces h data).length (order.headD 0)).startingSector
          = ((order.headD 0 : Nat) : Int) := rfl
      have hsa : (newEntry name (getFreeDirent ds) (pieces h data).length (order.headD 0)).isSane = true := rfl
      unfold ADirent.readChain
      rw [hst, hsa, Int.toNat_natCast]
      simp only [Bool.not_true, Bool.false_eq_true, if_false]
      rw [if_neg (by omega)]
      exact l1
    · rw [List.map_map]
      have : ((fun x : Nat × Nat × Nat => x.1) ∘ fun x : Nat × Bytes => (x.1, h.dpos x.1, x.2.length)) = Prod.fst := by
        funext x; rfl
      rw [this, List.map_fst_zip (by omega)]
    · intro he
      cases hp : pieces h data with
      | nil => exact p3 hp
      | cons q qs =>
        cases ho : order with
        | nil => exact hone ho
        | cons n ns =>
          rw [hp, ho] at he
          have hq := (p1 q (by rw [hp]; simp)).1
          rw [byteOrder, List.zip_cons_cons, List.map_cons, List.flatMap_cons, List.append_eq_nil_iff] at he
          have := congrArg List.length he.1
          simp at this
          rw [this] at hq; simp at hq
    · intro x hx
      obtain ⟨y, hy, rfl⟩ := List.mem_map.mp hx
      have := (p1 y.2 (List.of_mem_zip hy).2).2
      simp only; omega
    · unfold chainBytes
      rw [List.flatMap_map]
      rw [flatMap_zip_snd (fun n (q : Bytes) => (sec h b' n).take q.length) id _ _ hlen.symm (fun x hx => l2 x hx)]
      rw [List.flatMap_id, p2]

theorem mem_setDirent {ds : List ADirent} {k : Nat} (hk : k ≤ ds.length) {e d : ADirent} (hd : d ∈ setDirent ds k e) :
    d = e ∨ ∃ i, i ≠ k ∧ ds[i]? = some d := by
  obtain ⟨i, hi⟩ := List.getElem?_of_mem hd
  rw [getElem?_setDirent hk] at hi
  split at hi
  · left; injection hi with hi; exact hi.symm
  · right; exact ⟨i, by assumption, hi⟩

/-- everything about a successful write -/
theorem write_preserves {h b b' ds name data order map'} (c : Consistent h b ds) (hne : data ≠ [])
    (hidx : getFreeDirent ds < 64) (hfresh : ∀ d ∈ ds, d.inUse = true → d.filename ≠ norm83 name)
    (w : Written h b b' ds name data order map') {e : ADirent} (nf : NewFile h b' ds name data order e) :
    Consistent h b' (setDirent ds (getFreeDirent ds) e) ∧
    (∀ d ∈ ds, d.inUse = true → d.readChain h b' = d.readChain h b ∧ d.getFile h b' = d.getFile h b) ∧
    e.getFile h b' = .ok data := by
  have g := c.geom
  have g' : h.Geom b'.length := by rw [w.comm.len]; exact g
  obtain ⟨und, uall⟩ := w.res.user c.toLoose
  obtain ⟨k1, k2, k3⟩ := getFreeDirent_spec ds
  obtain ⟨p1, p2, p3⟩ := pieces_props h data c.sectorSize hne
  obtain ⟨fm1, fm2⟩ := freeMap_after c.toLoose w.comm w.res.mlen
  have hm := length_freeMap g c.sectorSize c.size
  obtain ⟨ln1, ln2⟩ := linkSectors_nums c.sectorSize hidx (pieces h data) order w.res.len.symm (fun x hx => (p1 x hx).2)
    (fun n hn => by have := (uall n hn).2.1; omega)
  have hfree : ∀ s, IsFree h b' s ↔ IsFree h b s ∧ s ∉ order := by
    intro s
    unfold IsFree
    rw [fm1, List.getElem?_take, w.res.bits]
    by_cases hs : s < 720
    · rw [if_pos hs, List.getElem?_append_left (by omega)]
      by_cases ho : s ∈ order <;> simp [ho]
    · rw [if_neg hs, List.getElem?_eq_none (by omega)]; simp
  have hlds : (setDirent ds (getFreeDirent ds) e).length = max ds.length (getFreeDirent ds + 1) := length_setDirent k1 e
  have hq : 16 * (setDirent ds (getFreeDirent ds) (rawEntry name (getFreeDirent ds) (pieces h data).length (order.headD 0))).length
      ≤ 8 * h.sectorSize := by
    rw [length_setDirent k1]
    have := c.dirLen
    have := c.sectorSize
    omega
  have heu : e.inUse = true := by rw [nf.entry]; rfl
  have hslu : ∀ x ∈ linkSectors WSector.setNextAtari (getFreeDirent ds) ((pieces h data).map (WSector.ofData h.sectorSize)) order,
      UserSec h x.num := by
    intro x hx
    have : x.num ∈ order := by
      rw [← ln1]; exact List.mem_map_of_mem hx
    exact (uall _ this).1
  obtain ⟨a1, a2, a3⟩ := dir_after c w.comm hq (ds' := setDirent ds (getFreeDirent ds) e)
    (by rw [length_setDirent k1, length_setDirent k1]) (by rw [hlds]; omega) hslu
    (by
      intro i r d hr hd
      rw [getElem?_setDirent k1] at hr hd
      by_cases hi : i = getFreeDirent ds
      · rw [if_pos hi] at hr hd
        injection hr with hr; injection hd with hd
        rw [← hr, ← hd, hi]
        exact ⟨nf.parse, Or.inl heu⟩
      · rw [if_neg hi] at hr hd
        rw [hd] at hr; injection hr with hr
        rw [← hr]
        obtain ⟨_, _, _, h4⟩ := (scanDir_ok c.dir).2 i d hd
        exact ⟨c.stable i d hd, h4⟩)
  -- chains of old files
  have hframe : ∀ d ∈ ds, d.inUse = true → ∃ l, d.readChain h b = .ok l ∧ d.readChain h b' = .ok l ∧ byteOrder l ≠ [] ∧
      (l.map (·.1)).Nodup ∧ (∀ x ∈ l, UserSec h x.1 ∧ ¬ IsFree h b x.1 ∧ x.2.2 ≤ h.sectorSize) ∧
      (∀ x ∈ l, sec h b' x.1 = sec h b x.1) ∧ d.getFile h b' = d.getFile h b := by
    intro d hd hu
    obtain ⟨l, l1, l2, l3, l4⟩ := c.chains d hd hu
    have hsec : ∀ x ∈ l, sec h b' x.1 = sec h b x.1 := by
      intro x hx
      apply sec_after c.toLoose w.comm w.slots (l4 x hx).1
      rw [ln1]
      intro hm
      exact (l4 x hx).2.1 (uall _ hm).2.2
    refine ⟨l, l1, readChain_frame g l1 (fun x hx => (l4 x hx).1.data g) hsec, l2, l3, l4, hsec, ?_⟩
    exact getFile_frame g w.comm.len l1 (fun x hx => ⟨(l4 x hx).1.data g, (l4 x hx).2.2⟩) l2 hsec
  obtain ⟨nl, n1, n2, n3, n4, n5⟩ := nf.chain
  have hnmem : ∀ x ∈ nl, x.1 ∈ order := by
    intro x hx; rw [← n2]; exact List.mem_map_of_mem hx
  refine ⟨?_, ?_, ?_⟩
  · refine { opens := a1, sectorSize := c.sectorSize, size := c.size, ed := c.ed, vtocCode := by rw [fm2]; exact c.vtocCode,
             dir := a2, term := a3, stable := ?_, chains := ?_, disjoint := ?_, free := ?_, first := ?_ }
    · intro i d hd
      rw [getElem?_setDirent k1] at hd
      by_cases hi : i = getFreeDirent ds
      · rw [if_pos hi] at hd; injection hd with hd; rw [← hd, hi]; exact nf.stable
      · rw [if_neg hi] at hd; exact c.stable i d hd
    · intro d hd hu
      rcases mem_setDirent k1 hd with rfl | ⟨i, _, hi⟩
      · refine ⟨nl, n1, n3, by rw [n2]; exact und, ?_⟩
        intro x hx
        exact ⟨(uall _ (hnmem x hx)).1, fun hf => ((hfree _).mp hf).2 (hnmem x hx), n4 x hx⟩
      · obtain ⟨l, _, l2, l3, l4, l5, _⟩ := hframe d (List.mem_of_getElem? hi) hu
        refine ⟨l, l2, l3, l4, ?_⟩
        intro x hx
        exact ⟨(l5 x hx).1, fun hf => (l5 x hx).2.1 ((hfree _).mp hf).1, (l5 x hx).2.2⟩
    · have hnew : ∀ d ∈ ds, d.inUse = true → ∀ l, d.readChain h b' = .ok l → ∀ x ∈ l, x.1 ∉ order := by
        intro d hd hu l hl x hx hm
        obtain ⟨l', _, l2, _, _, l5, _⟩ := hframe d hd hu
        rw [l2] at hl; injection hl with hl; subst hl
        exact (l5 x hx).2.1 (uall _ hm).2.2
      intro i j d f hd hf hij hdu hfu l l' hl hl' x hx y hy
      rw [getElem?_setDirent k1] at hd hf
      by_cases hi : i = getFreeDirent ds
      · rw [if_pos hi] at hd; injection hd with hd; subst hd
        rw [if_neg (by omega)] at hf
        rw [n1] at hl; injection hl with hl; subst hl
        intro heq
        exact hnew f (List.mem_of_getElem? hf) hfu l' hl' y hy (heq ▸ hnmem x hx)
      · rw [if_neg hi] at hd
        by_cases hj : j = getFreeDirent ds
        · rw [if_pos hj] at hf; injection hf with hf; subst hf
          rw [n1] at hl'; injection hl' with hl'; subst hl'
          intro heq
          exact hnew d (List.mem_of_getElem? hd) hdu l hl x hx (heq ▸ hnmem y hy)
        · rw [if_neg hj] at hf
          obtain ⟨l2, m1, m2, _⟩ := hframe d (List.mem_of_getElem? hd) hdu
          obtain ⟨l3, m3, m4, _⟩ := hframe f (List.mem_of_getElem? hf) hfu
          rw [m2] at hl; injection hl with hl; subst hl
          rw [m4] at hl'; injection hl' with hl'; subst hl'
          exact c.disjoint i j d f hd hf hij hdu hfu _ _ m1 m3 x hx y hy
    · intro s hs
      exact c.free s ((hfree s).mp hs).1
    · intro i j d f hd hf hdu hij
      rw [getElem?_setDirent k1] at hd hf
      have hname : e.filename = norm83 name := by rw [nf.entry]; rfl
      by_cases hi : i = getFreeDirent ds
      · rw [if_pos hi] at hd; injection hd with hd; subst hd
        rw [if_neg (by omega)] at hf
        rw [hname]
        exact hfresh f (List.mem_of_getElem? hf) (k3 j f (by omega) hf)
      · rw [if_neg hi] at hd
        by_cases hj : j = getFreeDirent ds
        · rw [if_pos hj] at hf; injection hf with hf; subst hf
          rw [hname]
          exact fun heq => hfresh d (List.mem_of_getElem? hd) hdu heq.symm
        · rw [if_neg hj] at hf
          exact c.first i j d f hd hf hdu hij
  · intro d hd hu
    obtain ⟨l, l1, l2, _, _, _, _, l3⟩ := hframe d hd hu
    exact ⟨by rw [l1, l2], l3⟩
  · rw [getFile_eq g' n1 (fun x hx => ⟨(uall _ (hnmem x hx)).1.data g, n4 x hx⟩) n3, n5]

/-- free pool after a write -/
theorem freePool_written {h b b' ds name data order map'} (c : Loose h b ds) (w : Written h b b' ds name data order map') :
    freePool h b' = (freePool h b).drop (pieces h data).length := by
  rw [freePool, (freeMap_after c w.comm w.res.mlen).1, w.res.rest]

end Atr
