import Verif.Spec.MyDos
import Verif.Props.AtariHigh
import Verif.Props.AtariOpen
/-!
# C112: disks of MyDOS
-/
namespace Atr

/-! ### reading -/

theorem myChain_loop {d : ADirent} (hm : d.mydos = true) {h : AHeader} {b : Bytes} (g : h.Geom b.length) (hss : 3 ≤ h.sectorSize)
    {s : Nat} {l : List Nat} (c : MyChain h b s l) : Ends d h b l.length ⟨s, []⟩ ∧ (∀ x ∈ l, h.DataSec x) ∧
      ∀ fuel, l.length ≤ fuel → d.readLoop h b fuel ⟨s, []⟩ = .ok (l.map fun x => (x, h.dpos x, myCount (sec h b x))) := by
  have hread : ∀ x, h.DataSec x → d.readSector h b ⟨x, []⟩ =
      .ok (⟨myLink (sec h b x), []⟩, myLink (sec h b x) == 0, h.dpos x, myCount (sec h b x)) := by
    intro x hx
    unfold ADirent.readSector ADirent.processRaw
    rw [getRawBytes_data g hx]
    have := length_sec g hx
    simp only [hm, if_true]
    rw [if_neg (by omega)]
    rfl
  induction c with
  | @last s hd hl =>
    have h1 := hread s hd
    rw [hl] at h1
    refine ⟨Ends.last h1, by simpa using hd, ?_⟩
    intro fuel hf
    cases fuel with
    | zero => simp at hf
    | succ fuel =>
      simp only [ADirent.readLoop]
      rw [h1]
      rfl
  | @next s l hd hl _ ih =>
    have h1 := hread s hd
    rw [show (myLink (sec h b s) == 0) = false by simpa using hl] at h1
    obtain ⟨i1, i2, i3⟩ := ih
    refine ⟨Ends.step h1 i1, ?_, ?_⟩
    · intro x hx
      rcases List.mem_cons.mp hx with rfl | hx
      · exact hd
      · exact i2 x hx
    · intro fuel hf
      cases fuel with
      | zero => simp at hf
      | succ fuel =>
        simp only [ADirent.readLoop]
        rw [h1]
        simp only [Bool.false_eq_true, if_false]
        rw [i3 fuel (by simpa using hf)]
        rfl

/-- **C112, reading.** Whatever the size of the disk, a MyDOS file is read in full: its sectors are those of the chain, anywhere on
the disk, and its contents are their data, in order. -/
theorem C112_read {b : Bytes} {h : AHeader} (ho : openHeader b = .ok h) (hss : 3 ≤ h.sectorSize) {d : ADirent} (hm : d.mydos = true)
    (hs : d.isSane = true) {s : Nat} (h0 : d.startingSector = s) {l : List Nat} (c : MyChain h b s l)
    (hfit : ∀ x ∈ l, myCount (sec h b x) ≤ h.sectorSize) (hne : l.flatMap (myData h b) ≠ []) :
    d.getFile h b = .ok (l.flatMap (myData h b)) ∧ ∃ r, d.readChain h b = .ok r ∧ r.map (·.1) = l := by
  have g := openHeader_geom ho
  obtain ⟨e, hd, hloop⟩ := myChain_loop hm g hss c
  have hchain : d.readChain h b = .ok (l.map fun x => (x, h.dpos x, myCount (sec h b x))) := by
    unfold ADirent.readChain
    rw [hs, if_neg (by decide), if_neg (by omega), h0, Int.toNat_natCast]
    exact hloop _ (e.bound hm g)
  refine ⟨?_, _, hchain, ?_⟩
  · rw [getFile_eq g hchain]
    · congr 1
      unfold chainBytes
      rw [List.flatMap_map]
      rfl
    · intro x hx
      obtain ⟨y, hy, rfl⟩ := List.mem_map.mp hx
      exact ⟨hd y hy, hfit y hy⟩
    · intro hz
      apply hne
      rw [List.flatMap_eq_nil_iff]
      intro x hx
      unfold byteOrder at hz
      rw [List.flatMap_eq_nil_iff] at hz
      have := congrArg List.length (hz _ (List.mem_map_of_mem hx))
      simp only [List.length_range', List.length_nil] at this
      unfold myData
      rw [this]
      rfl
  · rw [List.map_map]
    exact List.map_id' _

/-! ### what is kept -/

theorem sectorsOf_eq {m : AImg} {d : ADirent} {l} (h : d.readChain m.hdr m.bytes = .ok l) : m.sectorsOf d = l.map (·.1) := by
  unfold AImg.sectorsOf
  rw [h]

theorem op_step {m : AImg} {ds} (hm : Mounted m ds) (op : Op) (ha : op.Allowed m) : ∃ ds', Mounted (op.run m).2 ds' ∧
    (op.run m).2.hdr = m.hdr ∧ (∀ d ∈ m.files, op ≠ .delete d.filename → d ∈ (op.run m).2.files ∧
      d.getFile m.hdr (op.run m).2.bytes = d.getFile m.hdr m.bytes) ∧
    ∀ s, m.Unlisted s → (op.run m).2.Unlisted s ∧ sec m.hdr (op.run m).2.bytes s = sec m.hdr m.bytes s := by
  have g := hm.2.geom
  have hno : ∀ s, m.Unlisted s → ∀ d ∈ ds, d.inUse = true → ∀ l, d.readChain m.hdr m.bytes = .ok l → s ∉ l.map (·.1) := by
    intro s hs d hd hu l hl
    have := hs.2.2 d (by rw [hm.eq]; exact mem_files.mpr ⟨hd, hu⟩)
    rwa [sectorsOf_eq hl] at this
  have same : ∀ m1 : AImg, op.run m = (.ok (), m1) ∨ (∃ e, op.run m = (.error e, m1)) → m1 = m → ∃ ds', Mounted (op.run m).2 ds' ∧
      (op.run m).2.hdr = m.hdr ∧ (∀ d ∈ m.files, op ≠ .delete d.filename → d ∈ (op.run m).2.files ∧
        d.getFile m.hdr (op.run m).2.bytes = d.getFile m.hdr m.bytes) ∧
      ∀ s, m.Unlisted s → (op.run m).2.Unlisted s ∧ sec m.hdr (op.run m).2.bytes s = sec m.hdr m.bytes s := by
    intro m1 h1 h2
    subst h2
    have : (op.run m1).2 = m1 := by rcases h1 with h | ⟨e, h⟩ <;> rw [h]
    rw [this]
    exact ⟨ds, hm, rfl, fun d hd _ => ⟨hd, rfl⟩, fun s hs => ⟨hs, rfl⟩⟩
  cases op with
  | write name data =>
    obtain ⟨a1, a2, a3, a4⟩ := ha
    by_cases hk : (pieces m.hdr data).length ≤ (freePool m.hdr m.bytes).length
    · have hfr : ∀ d ∈ ds, d.inUse = true → d.filename ≠ norm83 name := by
        intro d hd hu hn
        refine a4 (List.mem_map.mpr ⟨d, ?_, hn⟩)
        rw [hm.eq]; exact mem_files.mpr ⟨hd, hu⟩
      rw [hm.eq] at a3
      obtain ⟨b', order, map', e, w, nf, c', hw', _⟩ := writeFile_ok hm.2 a1 a2 (free_slot a3) hfr hk
      obtain ⟨_, q2, _⟩ := write_preserves hm.2 a1 (free_slot a3) hfr w nf
      rw [← hm.eq] at hw'
      have hrun : (Op.run (.write name data) m).2 = mountRec m.hdr b' (setDirent ds (getFreeDirent ds) e) := congrArg Prod.snd hw'
      rw [hrun]
      obtain ⟨k1, k2, k3⟩ := getFreeDirent_spec ds
      obtain ⟨und, uall⟩ := w.res.user hm.2.toLoose
      obtain ⟨p1, _⟩ := pieces_props m.hdr data hm.2.sectorSize a1
      have ln := linkSectors_nums hm.2.sectorSize (free_slot a3) (pieces m.hdr data) order w.res.len.symm (fun x hx => (p1 x hx).2)
        (fun n hn => by have := (uall n hn).2.1; omega)
      refine ⟨_, mounted_mountRec c', rfl, ?_, ?_⟩
      · intro d hd _
        rw [hm.eq] at hd
        obtain ⟨hd1, hd2⟩ := mem_files.mp hd
        refine ⟨mem_files.mpr ⟨?_, hd2⟩, (q2 d hd1 hd2).2⟩
        obtain ⟨i, hi⟩ := List.getElem?_of_mem hd1
        apply List.mem_of_getElem? (i := i)
        rw [getElem?_setDirent k1, if_neg, hi]
        intro hc
        subst hc
        rw [k2 d hi] at hd2
        cases hd2
      · intro s hs
        have hns : s ∉ order := fun hc => hs.2.1 (uall s hc).2.2
        refine ⟨⟨hs.1, ?_, ?_⟩, sec_after hm.2.toLoose w.comm w.slots hs.1 (by rw [ln.1]; exact hns)⟩
        · obtain ⟨fm1, _⟩ := freeMap_after hm.2.toLoose w.comm w.res.mlen
          have hml := length_freeMap hm.2.geom hm.2.sectorSize hm.2.size
          show ¬ IsFree m.hdr b' s
          intro hf
          unfold IsFree at hf
          rw [fm1, List.getElem?_take, w.res.bits] at hf
          by_cases hlt : s < 720
          · rw [if_pos hlt, if_neg hns, List.getElem?_append_left (by omega)] at hf
            exact hs.2.1 hf
          · rw [if_neg hlt] at hf; cases hf
        · intro d hd
          obtain ⟨hd1, hd2⟩ := mem_files.mp hd
          rcases mem_setDirent k1 hd1 with rfl | ⟨i, _, hi⟩
          · obtain ⟨nl, n1, n2, _⟩ := nf.chain
            rw [sectorsOf_eq (m := mountRec m.hdr b' _) n1, n2]
            exact hns
          · have hmem := List.mem_of_getElem? hi
            obtain ⟨l, l1, _⟩ := hm.2.chains d hmem hd2
            rw [sectorsOf_eq (m := mountRec m.hdr b' _) ((q2 d hmem hd2).1.trans l1)]
            exact hno s hs d hmem hd2 l l1
    · exact same m (Or.inr ⟨_, mounted_full (name := name) hm (data := data) (by omega)⟩) rfl
  | delete name =>
    rcases ha with ha | ha
    · obtain ⟨d, hd, rfl⟩ := List.mem_map.mp ha
      rw [hm.eq] at hd
      have hd' := mem_files.mp hd
      obtain ⟨i, hi⟩ := List.getElem?_of_mem hd'.1
      obtain ⟨l, l1, _⟩ := hm.2.chains d hd'.1 hd'.2
      obtain ⟨b', map', w, c', hdel, hfree, _⟩ := deleteFile_ok hm.2 hi hd'.2 l1
      obtain ⟨_, q2, _⟩ := delete_preserves hm.2 hi hd'.2 l1 w
      rw [← hm.eq] at hdel
      have hrun : (Op.run (.delete d.filename) m).2 = mountRec m.hdr b' (ds.set i (deadEntry d)) := congrArg Prod.snd hdel
      rw [hrun]
      refine ⟨_, mounted_mountRec c', rfl, ?_, ?_⟩
      · intro e he hne
        rw [hm.eq] at he
        obtain ⟨he1, he2⟩ := mem_files.mp he
        refine ⟨mem_files.mpr ⟨?_, he2⟩, (q2 e he1 he2).2⟩
        obtain ⟨j, hj⟩ := List.getElem?_of_mem he1
        apply List.mem_of_getElem? (i := j)
        rw [List.getElem?_set, if_neg, hj]
        intro hc
        subst hc
        rw [hi] at hj
        injection hj with hj
        subst hj
        exact hne rfl
      · intro s hs
        refine ⟨⟨hs.1, ?_, ?_⟩, sec_after hm.2.toLoose w.comm w.slots hs.1 (by simp)⟩
        · show ¬ IsFree m.hdr b' s
          rw [hfree]
          rintro (hf | hf)
          · exact hs.2.1 hf
          · exact hno s hs d hd'.1 hd'.2 l l1 hf.1
        · intro e he
          obtain ⟨he1, he2⟩ := mem_files.mp he
          have hmem : e ∈ ds := by
            rcases List.mem_or_eq_of_mem_set he1 with h | h
            · exact h
            · rw [h] at he2; cases he2
          obtain ⟨l2, m1, _⟩ := hm.2.chains e hmem he2
          rw [sectorsOf_eq (m := mountRec m.hdr b' _) ((q2 e hmem he2).1.trans m1)]
          exact hno s hs e hmem he2 l2 m1
    · exact same m (Or.inr ⟨_, mounted_missing hm (ha ds hm.2.dir)⟩) rfl
  | shred fill =>
    obtain ⟨m2, k2, k3, k4, k5, w⟩ := mounted_shred hm fill ha
    have hrun : (Op.run (.shred fill) m).2 = m2 := congrArg Prod.snd k2
    rw [hrun]
    have hfiles : m2.files = m.files := by rw [k3.eq, hm.eq]; rfl
    have h360 : sec m.hdr m2.bytes 360 = sec m.hdr m.bytes 360 :=
      w.sec hm.2 (dataSec_of g (by omega) (by have := hm.2.size; omega)) fun hf => (hm.2.free 360 hf).2.2.2 (Or.inl ⟨by omega, by omega⟩)
    have hchain : ∀ d ∈ m.files, ∃ l, d.readChain m.hdr m.bytes = .ok l ∧ d.readChain m.hdr m2.bytes = .ok l ∧
        d.getFile m.hdr m2.bytes = d.getFile m.hdr m.bytes := by
      intro d hd
      rw [hm.eq] at hd
      obtain ⟨hd1, hd2⟩ := mem_files.mp hd
      obtain ⟨l, l1, l2, l3, l4⟩ := hm.2.chains d hd1 hd2
      have hsec : ∀ x ∈ l, sec m.hdr m2.bytes x.1 = sec m.hdr m.bytes x.1 :=
        fun x hx => w.sec hm.2 ((l4 x hx).1.data g) (l4 x hx).2.1
      exact ⟨l, l1, readChain_frame g l1 (fun x hx => (l4 x hx).1.data g) hsec,
        getFile_frame g w.len l1 (fun x hx => ⟨(l4 x hx).1.data g, (l4 x hx).2.2⟩) l2 hsec⟩
    refine ⟨ds, k3, k4, ?_, ?_⟩
    · intro d hd _
      obtain ⟨l, _, _, l3⟩ := hchain d hd
      exact ⟨by rw [hfiles]; exact hd, l3⟩
    · intro s hs
      refine ⟨⟨by rw [k4]; exact hs.1, ?_, ?_⟩, w.sec hm.2 (hs.1.data g) hs.2.1⟩
      · unfold IsFree freeMap
        rw [k4, h360]
        exact hs.2.1
      · intro d hd
        rw [hfiles] at hd
        obtain ⟨l, l1, l2, _⟩ := hchain d hd
        rw [sectorsOf_eq (by rw [k4]; exact l2), ← sectorsOf_eq l1]
        exact hs.2.2 d hd

/-- **C112, what is kept.** Any history of add, remove and shred commands that does not remove a file keeps its directory entry,
with all its flags, and its contents, whether it is a MyDOS file or not. -/
theorem C112_kept {m m' : AImg} {ds} (hm : Mounted m ds) {d : ADirent} (hd : d ∈ m.files) (hr : ReachBut d.filename m m') :
    d ∈ m'.files ∧ d.getFile m'.hdr m'.bytes = d.getFile m.hdr m.bytes := by
  suffices ∃ ds', Mounted m' ds' ∧ m'.hdr = m.hdr ∧ d ∈ m'.files ∧ d.getFile m.hdr m'.bytes = d.getFile m.hdr m.bytes by
    obtain ⟨_, _, h1, h2, h3⟩ := this
    exact ⟨h2, by rw [h1, h3]⟩
  induction hr with
  | start => exact ⟨ds, hm, rfl, hd, rfl⟩
  | @step m1 op _ ha hne ih =>
    obtain ⟨ds1, i1, i2, i3, i4⟩ := ih
    obtain ⟨ds2, j1, j2, j3, _⟩ := op_step i1 op ha
    obtain ⟨k1, k2⟩ := j3 d i3 hne
    rw [i2] at k2
    exact ⟨ds2, j1, j2.trans i2, k1, k2.trans i4⟩

/-- **C112, what is in use but in no listed file** (subdirectories and their files, for example) stays in use and is never
changed, whatever is added, removed and shredded. -/
theorem C112_unlisted {m m' : AImg} {ds} (hm : Mounted m ds) (hr : Reach m m') {s : Nat} (hs : m.Unlisted s) :
    m'.Unlisted s ∧ sec m'.hdr m'.bytes s = sec m.hdr m.bytes s := by
  suffices ∃ ds', Mounted m' ds' ∧ m'.hdr = m.hdr ∧ m'.Unlisted s ∧ sec m.hdr m'.bytes s = sec m.hdr m.bytes s by
    obtain ⟨_, _, h1, h2, h3⟩ := this
    exact ⟨h2, by rw [h1, h3]⟩
  induction hr with
  | start => exact ⟨ds, hm, rfl, hs, rfl⟩
  | @step m1 op _ ha ih =>
    obtain ⟨ds1, i1, i2, i3, i4⟩ := ih
    obtain ⟨ds2, j1, j2, _, j4⟩ := op_step i1 op ha
    obtain ⟨k1, k2⟩ := j4 s i3
    rw [i2] at k2
    exact ⟨ds2, j1, j2.trans i2, k1, k2.trans i4⟩

/-! ### removing a file above sector 1279 -/

theorem freeSectors_high : ∀ (l : List Nat) (map : List Bool), (∃ s ∈ l, map.length ≤ s) → freeSectors l map = .error .indexError := by
  intro l
  induction l with
  | nil => intro map h; obtain ⟨s, hs, _⟩ := h; cases hs
  | cons n l ih =>
    intro map h
    unfold freeSectors
    by_cases hn : n < map.length
    · rw [if_pos hn]
      apply ih
      obtain ⟨s, hs, h2⟩ := h
      rcases List.mem_cons.mp hs with rfl | hs
      · omega
      · exact ⟨s, hs, by rw [List.length_set]; exact h2⟩
    · rw [if_neg hn]

theorem getVtocObject_scan {h b ds} (c : Scans h b ds) : (mountRec h b ds).getVtocObject =
    .ok { view := ⟨h.dpos 360, h.sectorSize⟩, map := freeMap h b ++ List.replicate 560 false } := by
  have g := openHeader_geom c.opens
  have d360 : h.DataSec 360 := dataSec_of g (by omega) (by have := c.size; omega)
  have hm := length_freeMap g c.sectorSize c.size
  unfold AImg.getVtocObject
  have e1 : (mountRec h b ds).hdr.getContiguous (mountRec h b ds).firstVtoc (mountRec h b ds).numVtoc.toNat =
      .ok (h.dpos 360, h.sectorSize) := getContiguous_one g d360
  rw [e1]
  simp only
  have e2 : ∃ q, (if (mountRec h b ds).vtoc2 > 0 then (mountRec h b ds).hdr.getContiguous (mountRec h b ds).vtoc2 1 else Except.ok (0, 0)) =
      Except.ok q := by
    by_cases he : h.imageSize = 133120
    · have d1024 : h.DataSec 1024 := dataSec_of g (by omega) (c.ed he)
      exact ⟨(h.dpos 1024, h.sectorSize), by simp [mountRec, he, getContiguous_one g d1024]⟩
    · exact ⟨(0, 0), by simp [mountRec, he]⟩
  obtain ⟨q, hq⟩ := e2
  rw [hq]
  have hv : View.read ⟨h.dpos 360, h.sectorSize⟩ (mountRec h b ds).bytes = sec h b 360 := rfl
  simp only [hv]
  have : unpackbits (slice (sec h b 360) 10 100) = freeMap h b := rfl
  rw [this, if_pos hm]

/-- **C112 is false for large disks.** A listed file with a sector above 1279 can be read, but not removed: the command ends with an
`IndexError`, which is not one of the errors of the program, and nothing has changed. -/
theorem C112_remove_high {h b ds} (c : Scans h b ds) (hall : (ds.filter (·.inUse)).all (·.isSane) = true) {name : Bytes} {i : Nat}
    {d : ADirent} (hf : findDirentIdx ds name = .ok (i, d)) {r} (hr : d.readChain h b = .ok r) (hx : ∃ x ∈ r, 1280 ≤ x.1) :
    AImg.open b = .ok (mountRec h b ds) ∧
    AImg.deleteFile name (mountRec h b ds) = (.error .indexError, mountRec h b ds) := by
  have g := openHeader_geom c.opens
  refine ⟨by rw [open_scan c, if_pos hall], ?_⟩
  have hbody : AImg.deleteBody name (mountRec h b ds) = (.error .indexError, mountRec h b ds) := by
    unfold AImg.deleteBody
    have hdir : AImg.getDirectory (mountRec h b ds) = (.ok ds, mountRec h b ds) := by
      rw [getDirectory_eq (m := mountRec h b ds) g c.size g.ni c.dir]
      simp [mountRec, hall]
    rw [hdir]
    simp only
    rw [hf]
    simp only
    rw [show (mountRec h b ds).hdr = h from rfl, show (mountRec h b ds).bytes = b from rfl, hr]
    simp only
    rw [getVtocObject_scan c]
    simp only
    rw [freeSectors_high]
    obtain ⟨x, hx, h2⟩ := hx
    have := length_freeMap g c.sectorSize c.size
    exact ⟨x.1, List.mem_map_of_mem hx, by rw [List.length_append, List.length_replicate]; omega⟩
  unfold AImg.deleteFile AImg.transaction
  rw [hbody]
  simp only
  rw [if_neg (by decide), getMetadata_scan c rfl rfl rfl (Or.inl rfl), if_pos hall]

/-! ### disks -/

theorem diskOne_sec {hdr ent rest : Bytes} {h : AHeader} (hh : hdr.length = 16) (he : ent.length = 16) (hss : h.sectorSize = 128)
    (hpos : h.dpos 369 = 16 + 368 * 128) (hni : h.numInitialSectors = 0) (k : Nat) :
    sec h (diskImage hdr (16 + 359 * 128) 128 (ent ++ (List.replicate 1008 0 ++ rest))) (369 + k) =
      slice rest (k * 128) (k * 128 + 128) := by
  have hd : h.dpos (369 + k) = 16 + 368 * 128 + k * 128 := by
    rw [dpos_add h 369 k (by omega), hpos, hss]
  have hl1 : (hdr ++ List.replicate (16 + 359 * 128 - 16) (0 : UInt8)).length = 16 + 359 * 128 := by
    rw [List.length_append, List.length_replicate, hh]
  have hl2 : (blankVtoc ++ List.replicate (128 - 100) (0 : UInt8)).length = 128 := by
    rw [List.length_append, List.length_replicate, blankVtoc_length]
  have hl3 : (ent ++ List.replicate 1008 (0 : UInt8)).length = 1024 := by
    rw [List.length_append, List.length_replicate, he]
  unfold sec diskImage
  rw [hd, ← List.append_assoc ent, hss]
  generalize hdr ++ List.replicate (16 + 359 * 128 - 16) (0 : UInt8) = A at *
  generalize blankVtoc ++ List.replicate (128 - 100) (0 : UInt8) = B at *
  generalize ent ++ List.replicate 1008 (0 : UInt8) = C at *
  rw [show 16 + 368 * 128 + k * 128 = A.length + 1152 + k * 128 by omega]
  clear hl1 hd
  rw [show A.length + 1152 + k * 128 = A.length + B.length + C.length + k * 128 by omega]
  clear hl2 hl3
  apply List.ext_getElem?
  intro j
  rw [getElem?_slice, getElem?_slice, show A.length + B.length + C.length + k * 128 + j = A.length + B.length + C.length + (k * 128 + j) by omega, get_mid]
  by_cases hj : j < 128
  · rw [if_pos (by omega), if_pos (by omega)]
  · rw [if_neg (by omega), if_neg (by omega)]

/-- directory entry `BIG` of a MyDOS file: one sector, 1500 -/
def entHigh : Bytes := [0x46, 1, 0, 0xdc, 5, 0x42, 0x49, 0x47, 32, 32, 32, 32, 32, 32, 32, 32]
/-- it decoded -/
def direntHigh : ADirent := { direntBig 0x46 with startingSector := 1500 }
/-- sectors 369-2000: sector 1500 is the last of a file and has 125 bytes -/
def highRest : Bytes := List.replicate (1131 * 128) 0 ++ (sec800 ++ List.replicate (500 * 128) 0)
/-- a disk of 2000 sectors with this file -/
def highDisk : Bytes := diskImage bigHeader (16 + 359 * 128) 128 (entHigh ++ (List.replicate 1008 0 ++ highRest))

theorem highRest_length : highRest.length = 1632 * 128 := by
  unfold highRest
  simp only [List.length_append, List.length_replicate, sec800_length]

theorem highDisk_opens : openHeader highDisk = .ok bigH := by
  have h1 : readHeader highDisk = { imageSize := 256000, sectorSize := 128, headerOffset := 16 } := by
    unfold readHeader highDisk
    rw [slice_disk rfl]
    rfl
  have h2 : highDisk.length = 256016 := by
    have : entHigh.length = 16 := rfl
    unfold highDisk
    rw [diskImage_length rfl (by omega) (by omega), List.length_append, List.length_append, List.length_replicate, highRest_length, this]
  unfold openHeader
  rw [h1, h2]
  rfl

theorem highDisk_scans : Scans bigH highDisk [direntHigh] := by
  have hpos : bigH.dpos 360 = 16 + 359 * 128 := by decide
  refine ⟨highDisk_opens, Or.inl rfl, by decide, fun h => absurd h (by decide), Or.inr ?_, ?_⟩
  · rw [highDisk, disk_sec (hdr := bigHeader) (pos := 16 + 359 * 128) (ss := 128) (h := bigH) rfl (by omega) (by omega) rfl hpos]; rfl
  · unfold rawEntries highDisk
    rw [disk_dir (hdr := bigHeader) (pos := 16 + 359 * 128) (ss := 128) (h := bigH) rfl (by omega) (by omega) rfl hpos (by decide),
      ← List.append_assoc, List.take_left' (by rw [List.length_append, List.length_replicate]; rfl), chunks_append 16 (by omega) _ _ rfl]
    have hz := chunks_replicate_mem 16 1008 (by omega) (by decide)
    generalize chunks 16 (List.replicate 1008 (0 : UInt8)) = R at hz ⊢
    exact scanDir_append bigH [entHigh] [direntHigh] 0 R rfl
      (by
        intro i r e h1 h2
        cases i with
        | zero => simp at h1 h2; subst h1; subst h2; exact ⟨by rfl, Or.inl rfl⟩
        | succ i => simp at h1)
      (fun e he => hz e (List.mem_of_head? he))

theorem highDisk_1500 : sec bigH highDisk 1500 = sec800 := by
  rw [show (1500 : Nat) = 369 + 1131 from rfl]
  unfold highDisk
  rw [diskOne_sec rfl rfl rfl (by decide) rfl, highRest]
  exact slice_mid List.length_replicate sec800_length

theorem highDisk_chain : MyChain bigH highDisk 1500 [1500] :=
  .last (dataSec_of (openHeader_geom highDisk_opens) (by omega) (by decide)) (by rw [highDisk_1500]; decide +kernel)

theorem highDisk_data : [1500].flatMap (myData bigH highDisk) = List.replicate 125 7 := by
  rw [List.flatMap_cons, List.flatMap_nil, List.append_nil]
  unfold myData
  rw [highDisk_1500]
  decide +kernel

/-- **C112, a file on a disk of 2000 sectors**: it is read in full from sector 1500 and cannot be removed. -/
theorem C112_refuted_remove : ∃ m, AImg.open m.bytes = .ok m ∧ m.names = [[0x42, 0x49, 0x47]] ∧
    m.findFile [0x42, 0x49, 0x47] = .ok (List.replicate 125 7) ∧
    AImg.deleteFile [0x42, 0x49, 0x47] m = (.error .indexError, m) := by
  obtain ⟨h1, r, h2, h3⟩ := C112_read highDisk_opens (by decide) (d := direntHigh) rfl rfl rfl highDisk_chain
    (by
      intro x hx
      rw [List.mem_singleton] at hx
      subst hx
      rw [highDisk_1500]; decide +kernel)
    (by rw [highDisk_data]; intro h; cases h)
  rw [highDisk_data] at h1
  obtain ⟨k1, k2⟩ := C112_remove_high highDisk_scans rfl (name := [0x42, 0x49, 0x47]) (i := 0) (d := direntHigh) rfl h2
    (by
      have : 1500 ∈ r.map (·.1) := by rw [h3]; exact List.mem_singleton.mpr rfl
      obtain ⟨x, hx, hx2⟩ := List.mem_map.mp this
      exact ⟨x, hx, by omega⟩)
  generalize highDisk = b at *
  refine ⟨mountRec bigH b [direntHigh], k1, rfl, ?_, k2⟩
  rw [← h1]
  rfl

/-- a MyDOS file on an enhanced density disk -/
theorem ed46_chain : (direntBig 0x46).readChain edH (edOne 0x46) = .ok [(800, edH.dpos 800, 125)] := by
  have g := openHeader_geom (edOne_opens 0x46)
  have hd : edH.DataSec 800 := dataSec_of g (by omega) (by decide)
  have c : MyChain edH (edOne 0x46) 800 [800] := .last hd (by rw [edOne_800]; decide +kernel)
  obtain ⟨e, _, hloop⟩ := myChain_loop (d := direntBig 0x46) rfl g (by decide) c
  unfold ADirent.readChain
  rw [if_neg (by decide), if_neg (by decide)]
  have := hloop (edH.maxSectors + 1) (by decide)
  rw [List.map_singleton, edOne_800, show myCount sec800 = 125 by decide +kernel] at this
  exact this

theorem ed46_mounted : Mounted (mountRec edH (edOne 0x46) [direntBig 0x46]) [direntBig 0x46] :=
  mounted_mountRec (edOne_consistent 0x46 ed46_chain (by decide) (by rfl) (by rfl))

theorem ed10_mounted : Mounted (mountRec edH (edOne 0x10) [direntBig 0x10]) [direntBig 0x10] :=
  mounted_mountRec (edOne_consistent 0x10 (edOne_chain 0x10 (by decide)) (by decide) (by rfl) (by rfl))

/-- the file stays a MyDOS file, with its contents, when another one is added -/
example : direntBig 0x46 ∈ (AImg.writeFile nameA dataA (mountRec edH (edOne 0x46) [direntBig 0x46])).2.files := by
  have hm := ed46_mounted
  generalize edOne 0x46 = b at hm
  refine (C112_kept hm (d := direntBig 0x46) (mem_files.mpr ⟨List.mem_singleton.mpr rfl, rfl⟩)
    (ReachBut.step (.write nameA dataA) .start ⟨dataA_ne, canonA.2, by show 1 < 64; omega, ?_⟩ (fun h => by cases h))).1
  rw [canonA.1]
  show nameA ∉ [[0x42, 0x49, 0x47]]
  decide

/-- the sector of a subdirectory is in use and in no listed file -/
theorem ed10_unlisted : (mountRec edH (edOne 0x10) [direntBig 0x10]).Unlisted 800 := by
  refine ⟨by unfold UserSec; decide, not_free_high ed10_mounted (by omega), ?_⟩
  intro d hd
  rw [show (mountRec edH (edOne 0x10) [direntBig 0x10]).files = [] from rfl] at hd
  cases hd

/-- **C112 is false for subdirectories.** A subdirectory is not listed, and the next file that is added takes its directory entry;
the sector of the subdirectory is still there, in use, and nothing refers to it. -/
theorem C112_refuted_subdir : ∃ m ds d, Mounted m ds ∧ d ∈ ds ∧ d.flag = 0x10 ∧ d.startingSector = 800 ∧ d.filename ∉ m.names ∧
    ∃ m' ds', AImg.writeFile nameA dataA m = (.ok (), m') ∧ Mounted m' ds' ∧ (∀ e ∈ ds', e.filename ≠ d.filename) ∧
      m'.Unlisted 800 := by
  have hnm : (mountRec edH (edOne 0x10) [direntBig 0x10]).names = [] := rfl
  have hnew : nameA ∉ (mountRec edH (edOne 0x10) [direntBig 0x10]).names := by rw [hnm]; simp
  have hpool : (freePool edH (edOne 0x10)).length = 707 := by
    unfold freePool
    rw [edOne_free]; exact blankPool_length
  obtain ⟨m', ds', _, _, _, _, h1, h2, _⟩ := mounted_write (name := nameA) (data := dataA) ed10_mounted dataA_ne canonA.2
    (by show 0 < 64; omega) (by rw [canonA.1]; exact hnew)
    (by
      rw [needed_eq ed10_mounted]
      show sectorsNeeded edH dataA.length ≤ (freePool edH (edOne 0x10)).length
      rw [hpool]
      unfold dataA sectorsNeeded
      rw [List.length_replicate]
      decide)
  refine ⟨_, _, direntBig 0x10, ed10_mounted, List.mem_singleton.mpr rfl, rfl, rfl, by rw [hnm]; simp, m', ?_⟩
  obtain ⟨e, e1, e2, e3⟩ := C109_entry_taken (i := 0) (d := direntBig 0x10) ed10_mounted canonA hnew (by show 0 < 64; omega) dataA_ne h1 rfl rfl
    (fun j e hj => by omega)
  refine ⟨_, h1, e3, ?_, ?_⟩
  · intro x hx
    rw [show [direntBig 0x10].set 0 e = [e] from rfl, List.mem_singleton] at hx
    subst hx
    rw [e1]
    decide
  · have hst : m' = (Op.run (.write nameA dataA) (mountRec edH (edOne 0x10) [direntBig 0x10])).2 := (congrArg Prod.snd h1).symm
    rw [hst]
    exact (C112_unlisted ed10_mounted (Reach.step (.write nameA dataA) .start
      ⟨dataA_ne, canonA.2, by show 0 < 64; omega, by rw [canonA.1]; exact hnew⟩) ed10_unlisted).1

end Atr
