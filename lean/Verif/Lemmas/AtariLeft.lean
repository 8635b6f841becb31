import Verif.Lemmas.AtariOps
/-! # Writing to volumes with entries after the end of the directory -/
namespace Atr

theorem scanDir_total (h : AHeader) : ∀ (n : Nat) (raw : List Bytes), (∀ e ∈ raw, e.length = 16) → ∃ ds, scanDir h n raw = .ok ds := by
  intro n raw
  induction raw generalizing n with
  | nil => intro _; exact ⟨[], rfl⟩
  | cons r raw ih =>
    intro hr
    obtain ⟨d, hd⟩ := parse_total h n r (hr r (by simp))
    obtain ⟨ds, hds⟩ := ih (n + 1) fun e he => hr e (by simp [he])
    unfold scanDir
    rw [hd]
    simp only
    split
    · exact ⟨[], rfl⟩
    · rw [hds]
      exact ⟨_, rfl⟩

/-- entries that stay, then whatever the scan of the rest gives -/
theorem scanDir_back (h : AHeader) {back : List ADirent} : ∀ (raw : List Bytes) (ds : List ADirent) (n : Nat) (rest : List Bytes),
    raw.length = ds.length →
    (∀ i r d, raw[i]? = some r → ds[i]? = some d → ADirent.parse h (n + i) r = .ok d ∧ (d.inUse = true ∨ d.flag ≠ 0)) →
    scanDir h (n + ds.length) rest = .ok back → scanDir h n (raw ++ rest) = .ok (ds ++ back) := by
  intro raw
  induction raw with
  | nil =>
    intro ds n rest hl _ hr
    have : ds = [] := by simpa using hl.symm
    rw [this] at hr ⊢
    exact hr
  | cons r raw ih =>
    intro ds n rest hl hp hr
    match ds, hl with
    | d :: ds, hl =>
      have h0 := hp 0 r d rfl rfl
      have ht : (!d.inUse && d.flag == 0) = false := by
        rcases h0.2 with h | h <;> simp [h]
      have := ih ds (n + 1) rest (by simpa using hl) (fun i r' d' hr' hd' => by
        have := hp (i + 1) r' d' (by simpa using hr') (by simpa using hd')
        rwa [show n + 1 + i = n + (i + 1) by omega]) (by
        rw [← hr]; simp only [List.length_cons]; rw [show n + 1 + ds.length = n + (ds.length + 1) by omega])
      simp only [List.cons_append, scanDir]
      rw [show n = n + 0 by omega, h0.1]
      simp [ht, this]

/-- the entries that come back when the directory has `n` entries: none if the last sector is not full, else what a scan
of the old entries from there on gives -/
def Returns (h : AHeader) (b : Bytes) (n : Nat) (back : List ADirent) : Prop :=
  (16 * n % h.sectorSize ≠ 0 → back = []) ∧
  (16 * n % h.sectorSize = 0 → scanDir h n ((rawEntries h b).drop n) = .ok back)

/-- directory and header after a commit -/
theorem dir_after_loose {h b b' ds v1 sl} (c : Loose h b ds) {raw ds' : List ADirent}
    (comm : Committed h b b' v1 sl (calcDirSectors h raw))
    (hq : 16 * raw.length ≤ 8 * h.sectorSize)
    (hlen : raw.length = ds'.length)
    (hsl : ∀ w ∈ sl, UserSec h w.num)
    (hp : ∀ (i : Nat) (r d : ADirent), raw[i]? = some r → ds'[i]? = some d → ADirent.parse h i r.encode = .ok d ∧ (d.inUse = true ∨ d.flag ≠ 0)) :
    openHeader b' = .ok h ∧ ∃ back, scanDir h 0 (rawEntries h b') = .ok (ds' ++ back) ∧ Returns h b ds'.length back := by
  have g := c.geom
  have g' : h.Geom b'.length := by rw [comm.len]; exact g
  have hss := c.sectorSize
  obtain ⟨_, h16, k, zs, k1, k2, k3, z1, z2, he⟩ := rawEntries_rewritten (b := b) (b' := b') g g' c.sectorSize c.size g.ni (raw.map ADirent.encode)
    (by intro x hx; obtain ⟨d, _, rfl⟩ := List.mem_map.mp hx; simp) (by simpa using hq) comm.dir
    (by
      intro s hs1 hs2 hs3
      apply comm.other s (dataSec_of g (by omega) (by have := c.size; omega)) (by omega) _ hs3
      intro hm
      obtain ⟨w, hw, rfl⟩ := List.mem_map.mp hm
      have := (hsl w hw).2.2.2
      omega)
  rw [List.length_map] at k1 k3 z1
  refine ⟨by rw [openHeader_congr comm.len comm.front]; exact c.opens, ?_⟩
  have hpp : ∀ i r d, (raw.map ADirent.encode)[i]? = some r → ds'[i]? = some d → ADirent.parse h (0 + i) r = .ok d ∧ (d.inUse = true ∨ d.flag ≠ 0) := by
    intro i r d hr hd
    rw [List.getElem?_map] at hr
    cases hx : raw[i]? with
    | none => simp [hx] at hr
    | some x =>
      simp [hx] at hr
      have := hp i x d hx hd
      rw [Nat.zero_add, ← hr]; exact this
  by_cases hm : 16 * ds'.length % h.sectorSize = 0
  · have hk : k = ds'.length := by
      rcases hss with h | h <;> rw [h] at hm k2 k3 <;> omega
    have hz : zs = [] := List.length_eq_zero_iff.mp (by omega)
    obtain ⟨back, hb⟩ := scanDir_total h ds'.length ((rawEntries h b).drop ds'.length) fun e he => h16 e (List.mem_of_mem_drop he)
    refine ⟨back, ?_, fun hn => absurd hm hn, fun _ => hb⟩
    rw [he, hz, hk]
    exact scanDir_back h _ _ 0 _ (by simpa using hlen) hpp (by rw [Nat.zero_add]; exact hb)
  · refine ⟨[], ?_, fun _ => rfl, fun hn => absurd hn hm⟩
    rw [he]
    refine scanDir_back h _ _ 0 _ (by simpa using hlen) hpp (scanDir_term h _ _ fun e he => ?_)
    have h0 : 0 < zs.length := by
      by_cases h0 : 0 < zs.length
      · exact h0
      · rw [show k = ds'.length by omega] at k2
        exact absurd k2 hm
    rw [List.head?_eq_getElem?, List.getElem?_append_left h0] at he
    exact z2 e (List.mem_of_getElem? he)

/-- Writing to a volume with entries after the end of the directory: the new file, the old files as they were, and
the entries that come back. -/
theorem writeFile_loose {h b ds} (c : Loose h b ds) {name data : Bytes} (hne : data ≠ []) (h0 : (0 : UInt8) ∉ name)
    (hidx : getFreeDirent ds < 64) (hk : (pieces h data).length ≤ (freePool h b).length) :
    ∃ b' e back, Scans h b' (setDirent ds (getFreeDirent ds) e ++ back) ∧
      Returns h b (max ds.length (getFreeDirent ds + 1)) back ∧
      e.inUse = true ∧ e.isSane = true ∧ e.filename = norm83 name ∧ e.getFile h b' = .ok data ∧
      (∀ d ∈ ds, d.inUse = true → d.getFile h b' = d.getFile h b) ∧
      AImg.writeFile name data (mountRec h b ds) =
        if (back.filter (·.inUse)).all (·.isSane) then (.ok (), mountRec h b' (setDirent ds (getFreeDirent ds) e ++ back))
        else (.error .invalidDiskImage, { mountRec h b' (setDirent ds (getFreeDirent ds) e ++ back) with allSane := false }) := by
  obtain ⟨b', order, map', w⟩ := writeBody_ok (name := name) c hne hidx hk
  obtain ⟨e, nf⟩ := newFile_spec c hne h0 hidx w
  have g := c.geom
  have g' : h.Geom b'.length := by rw [w.comm.len]; exact g
  obtain ⟨und, uall⟩ := w.res.user c
  obtain ⟨k1, k2, k3⟩ := getFreeDirent_spec ds
  obtain ⟨p1, p2, p3⟩ := pieces_props h data c.sectorSize hne
  obtain ⟨fm1, fm2⟩ := freeMap_after c w.comm w.res.mlen
  obtain ⟨ln1, ln2⟩ := linkSectors_nums c.sectorSize hidx (pieces h data) order w.res.len.symm (fun x hx => (p1 x hx).2)
    (fun n hn => by have := (uall n hn).2.1; omega)
  have hlds : (setDirent ds (getFreeDirent ds) e).length = max ds.length (getFreeDirent ds + 1) := length_setDirent k1 e
  have hq : 16 * (setDirent ds (getFreeDirent ds) (rawEntry name (getFreeDirent ds) (pieces h data).length (order.headD 0))).length
      ≤ 8 * h.sectorSize := by
    rw [length_setDirent k1]
    have := c.dirLen
    have := c.sectorSize
    omega
  have heu : e.inUse = true := by rw [nf.entry]; rfl
  have hen : e.filename = norm83 name := by rw [nf.entry]; rfl
  have hslu : ∀ x ∈ linkSectors WSector.setNextAtari (getFreeDirent ds) ((pieces h data).map (WSector.ofData h.sectorSize)) order,
      UserSec h x.num := by
    intro x hx
    have : x.num ∈ order := by
      rw [← ln1]; exact List.mem_map_of_mem hx
    exact (uall _ this).1
  obtain ⟨a1, back, a2, a3⟩ := dir_after_loose c w.comm hq (ds' := setDirent ds (getFreeDirent ds) e)
    (by rw [length_setDirent k1, length_setDirent k1]) hslu
    (by
      intro i r d hr hd
      rw [getElem?_setDirent k1] at hr hd
      by_cases hi : i = getFreeDirent ds
      · rw [if_pos hi] at hr hd
        injection hr with hr; injection hd with hd
        rw [← hr, ← hd, hi]
        exact ⟨nf.parse, Or.inl heu⟩
      · rw [if_neg hi] at hr hd
        rw [hd] at hr; injection hr with hr
        rw [← hr]
        obtain ⟨_, _, _, h4⟩ := (scanDir_ok c.dir).2 i d hd
        exact ⟨c.stable i d hd, h4⟩)
  rw [hlds] at a3
  have hsc : Scans h b' (setDirent ds (getFreeDirent ds) e ++ back) :=
    ⟨a1, c.sectorSize, c.size, c.ed, by rw [fm2]; exact c.vtocCode, a2⟩
  have hold : ∀ d ∈ ds, d.inUse = true → d.getFile h b' = d.getFile h b := by
    intro d hd hu
    obtain ⟨l, l1, l2, l3, l4⟩ := c.chains d hd hu
    have hsec : ∀ x ∈ l, sec h b' x.1 = sec h b x.1 := by
      intro x hx
      apply sec_after c w.comm w.slots (l4 x hx).1
      rw [ln1]
      intro hm
      exact (l4 x hx).2.1 (uall _ hm).2.2
    exact getFile_frame g w.comm.len l1 (fun x hx => ⟨(l4 x hx).1.data g, (l4 x hx).2.2⟩) l2 hsec
  obtain ⟨nl, n1, n2, n3, n4, n5⟩ := nf.chain
  have hnew : e.getFile h b' = .ok data := by
    have := getFile_eq g' n1 (fun x hx => ⟨(uall _ (by rw [← n2]; exact List.mem_map_of_mem hx)).1.data g, n4 x hx⟩) n3
    rw [this, n5]
  have hsane : e.isSane = true := by
    unfold ADirent.readChain at n1
    cases hs : e.isSane with
    | true => rfl
    | false => simp [hs] at n1
  have hall : ((setDirent ds (getFreeDirent ds) e ++ back).filter (·.inUse)).all (·.isSane) = (back.filter (·.inUse)).all (·.isSane) := by
    have : ((setDirent ds (getFreeDirent ds) e).filter (·.inUse)).all (·.isSane) = true := by
      rw [List.all_eq_true]
      intro d hd
      obtain ⟨hd, hu⟩ := List.mem_filter.mp hd
      rcases mem_setDirent k1 hd with rfl | ⟨i, _, hi⟩
      · exact hsane
      · exact c.sane (List.mem_of_getElem? hi) hu
    rw [List.filter_append, List.all_append, this, Bool.true_and]
  refine ⟨b', e, back, hsc, a3, heu, hsane, hen, hnew, hold, ?_⟩
  unfold AImg.writeFile AImg.transaction
  rw [w.body]
  show AImg.getMetadata { mountRec h b ds with bytes := b' } = _
  rw [getMetadata_scan hsc rfl rfl rfl (Or.inl rfl), hall]

end Atr
