import Verif.Spec.Dos33
/-! # DOS 3.3: opening, reading, free sectors -/
namespace Atr

/-! ### free sectors -/

theorem getElem?_unpackbits : ∀ (u : Bytes) (i j : Nat), j < 8 → (unpackbits u)[8 * i + j]? = (u[i]?).map fun x => x.toNat.testBit (7 - j) := by
  intro u
  induction u with
  | nil => intro i j _; simp [unpackbits]
  | cons x u ih =>
    intro i j hj
    have hx : (unpackByte x).length = 8 := by simp [unpackByte]
    rw [unpackbits, List.flatMap_cons]
    cases i with
    | zero =>
      rw [List.getElem?_append_left (by omega)]
      simp [unpackByte, hj]
    | succ i =>
      rw [List.getElem?_append_right (by omega), hx, show 8 * (i + 1) + j - 8 = 8 * i + j by omega]
      have := ih i j hj
      rw [unpackbits] at this
      rw [this]; simp

theorem getElem?_used : ∀ (v : Bytes) (t k : Nat), 4 ∣ v.length → k < 2 → ((chunks 4 v).flatMap (·.take 2))[2 * t + k]? = v[4 * t + k]? := by
  intro v
  induction v using chunks_induction 4 (by omega) with
  | nil => intro t k _ _; simp
  | step v hv ih =>
    intro t k hd hk
    have hl : 4 ≤ v.length := by
      have := List.length_pos_iff.mpr hv
      exact Nat.le_of_dvd this hd
    rw [chunks_cons 4 (by omega) v hv, List.flatMap_cons]
    have h2 : ((v.take 4).take 2).length = 2 := by simp; omega
    cases t with
    | zero =>
      rw [List.getElem?_append_left (by omega), List.getElem?_take, if_pos (by omega), List.getElem?_take, if_pos (by omega)]
    | succ t =>
      rw [List.getElem?_append_right (by omega), h2, show 2 * (t + 1) + k - 2 = 2 * t + k by omega,
        ih t k (by rw [List.length_drop]; omega) hk, List.getElem?_drop]
      congr 1; omega

theorem testBit_hi_lo (hi lo : UInt8) (k : Nat) :
    (256 * hi.toNat + lo.toNat).testBit k = if k < 8 then lo.toNat.testBit k else hi.toNat.testBit (k - 8) := by
  have h := lo.toNat_lt
  rw [show 256 * hi.toNat = 2 ^ 8 * hi.toNat by rfl, Nat.testBit_two_pow_mul_add _ h]

/-- the sector map of the code and the bits of the VTOC -/
theorem vtocMap33_get {v : Bytes} (hv : v.length = 256) {s : Nat} (hs : s < 800) :
    (vtocMap33 v)[s]? = some ((256 * (v.getD (0x38 + 4 * (s / 16)) 0).toNat + (v.getD (0x39 + 4 * (s / 16)) 0).toNat).testBit (s % 16)) := by
  have hd : 4 ∣ (v.drop 0x38).length := ⟨50, by simp [hv]⟩
  have hu : ∀ k, k < 2 → ((chunks 4 (v.drop 0x38)).flatMap (·.take 2))[2 * (s / 16) + k]? = some (v.getD (0x38 + 4 * (s / 16) + k) 0) := by
    intro k hk
    rw [getElem?_used _ _ _ hd hk, List.getElem?_drop, List.getD_eq_getElem?_getD,
      List.getElem?_eq_getElem (by omega : 0x38 + (4 * (s / 16) + k) < v.length),
      List.getElem?_eq_getElem (by omega : 0x38 + 4 * (s / 16) + k < v.length)]
    simp [Nat.add_assoc]
  have h0 := hu 0 (by omega)
  have h1 := hu 1 (by omega)
  unfold vtocMap33
  simp only
  rw [List.getElem?_append_left (by simpa using hs), List.getElem?_map, List.getElem?_range hs]
  simp only [Option.map_some]
  rw [testBit_hi_lo _ _ _, List.getD_eq_getElem?_getD]
  by_cases hk : s % 16 < 8
  · rw [if_pos hk, show reorder33 s = 8 * (2 * (s / 16) + 1) + (7 - s % 16) by unfold reorder33; omega,
      getElem?_unpackbits _ _ _ (by omega), h1]
    simp only [Option.map_some, Option.getD_some]
    congr 3
    · rw [show 0x38 + 4 * (s / 16) + 1 = 0x39 + 4 * (s / 16) by omega]
    · omega
  · rw [if_neg hk, show reorder33 s = 8 * (2 * (s / 16) + 0) + (15 - s % 16) by unfold reorder33; omega,
      getElem?_unpackbits _ _ _ (by omega), h0]
    simp only [Option.map_some, Option.getD_some, Nat.add_zero]
    congr 2
    omega

theorem restMap33_get (i : Nat) : restMap33[i]? ≠ some true := by
  unfold restMap33
  rw [List.getElem?_replicate]
  split <;> simp

theorem isFree33_iff {b : Bytes} (hb : b.length = 143360) (s : Nat) : IsFree33 b s ↔ (vtocMap33 (sec33 b 272))[s]? = some true := by
  have hv := length_sec33 hb (by omega : 272 < 560)
  by_cases hs : s < 800
  · rw [vtocMap33_get hv hs, IsFree33]
    simp only [hs, true_and, Option.some.injEq]
  · refine ⟨fun h => absurd h.1 hs, fun h => ?_⟩
    unfold vtocMap33 at h
    simp only at h
    rw [List.getElem?_append_right (by simp; omega)] at h
    exact absurd h (restMap33_get _)

theorem freeFrom_eq : ∀ (m : List Bool) (k : Nat), freeFrom k m = (List.range' k m.length).filter (fun i => m[i - k]? == some true) := by
  intro m
  induction m with
  | nil => intro k; rfl
  | cons a m ih =>
    intro k
    have hrest : (List.range' (k + 1) m.length).filter (fun i => (a :: m)[i - k]? == some true) = freeFrom (k + 1) m := by
      rw [ih]
      refine List.filter_congr fun i hi => ?_
      have := List.mem_range'_1.mp hi
      rw [show i - k = (i - (k + 1)) + 1 by omega, List.getElem?_cons_succ]
    rw [List.length_cons, List.range'_succ, List.filter_cons]
    cases a with
    | true => rw [if_pos (by simp), hrest]; rfl
    | false => rw [if_neg (by simp), hrest]; rfl

theorem freeFrom_nil {m : List Bool} : ∀ {k : Nat}, (∀ i : Nat, m[i]? ≠ some true) → freeFrom k m = [] := by
  intro k h
  cases hf : freeFrom k m with
  | nil => rfl
  | cons x l =>
    have := (mem_freeFrom m k x).mp (by rw [hf]; simp)
    exact absurd this.2 (h _)

theorem freePool33_eq {b : Bytes} (hb : b.length = 143360) : freeList (vtocMap33 (sec33 b 272)) = freePool33 b := by
  have hsplit : vtocMap33 (sec33 b 272) = (vtocMap33 (sec33 b 272)).take 800 ++ restMap33 := by
    unfold vtocMap33
    simp only
    rw [List.take_append, List.take_of_length_le (by simp)]
    simp
  have hl : ((vtocMap33 (sec33 b 272)).take 800).length = 800 := by rw [List.length_take, length_vtocMap33]; rfl
  have : freeList (vtocMap33 (sec33 b 272)) = freeFrom 0 ((vtocMap33 (sec33 b 272)).take 800) := by
    conv => lhs; rw [hsplit]
    rw [freeList, freeFrom_append, freeFrom_nil restMap33_get, List.append_nil]
  rw [this, freeFrom_eq, hl, ← List.range_eq_range', freePool33]
  refine List.filter_congr fun i hi => ?_
  have hi := List.mem_range.mp hi
  rw [Nat.sub_zero, List.getElem?_take, if_pos hi]
  have := isFree33_iff hb i
  by_cases h : IsFree33 b i
  · rw [this.mp h]; simp [h]
  · have h2 : ¬ ((vtocMap33 (sec33 b 272))[i]? = some true) := fun hh => h (this.mpr hh)
    simp [h, h2]

theorem mem_freePool33 {b : Bytes} {s : Nat} : s ∈ freePool33 b ↔ IsFree33 b s := by
  unfold freePool33
  rw [List.mem_filter, List.mem_range]
  simp only [decide_eq_true_eq]
  exact ⟨fun h => h.2, fun h => ⟨h.1, h⟩⟩

/-! ### opening -/

/-- the image after `get_metadata` -/
def mount33 (b : Bytes) (ds : List DDirent) : DImg :=
  { bytes := b, firstDir := linkOf (sec33 b 272), maxSectors := 560, tsPairs := 122
    files := ds.filter (fun d => !d.deleted), allSane := true }

theorem Consistent33.catLoop {b cs ds} (c : Consistent33 b cs ds) : catLoop 560 b 561 (linkOf (sec33 b 272)) 0 = .ok ds := by
  have := catLoop_eq c.size c.cat 561 0 (by have := c.cat.length_le; omega) (by rw [c.dir]; exact c.term)
  rw [this, c.dir]

theorem getMetadata33 {b cs ds} (c : Consistent33 b cs ds) {m : DImg} (h1 : m.bytes = b) (h2 : m.maxSectors = 560)
    (h3 : m.allSane = true) (hf : linkOf (sec33 b 272) < 560) : DImg.getMetadata m = (.ok (), mount33 b ds) := by
  have hboot : m.getBootInfo = .ok () := by
    unfold DImg.getBootInfo getSec33
    rw [h1, h2]
    simp only [show (0 : Nat) < 560 by omega, show (272 : Nat) < 560 by omega, show (286 : Nat) < 560 by omega, if_true]
    rw [if_neg c.boot]
    by_cases h : (sec33 b 272).getD 3 0 = 3
    · rw [if_pos h, if_pos (c.vtoc h)]
    · rw [if_neg h]
  have hvt : DImg.getVtoc m = (.ok (), { m with firstDir := linkOf (sec33 b 272), maxSectors := 560, tsPairs := 122 }) := by
    unfold DImg.getVtoc getSec33
    rw [h1, h2]
    simp only [show (272 : Nat) < 560 by omega, if_true]
    rw [c.tracks, c.sectors, c.pairs]
    rw [if_pos]
    · rfl
    · exact hf
  unfold DImg.getMetadata
  rw [hboot]
  simp only
  rw [hvt]
  simp only
  unfold DImg.getDirectory
  simp only
  rw [h1, c.catLoop]
  simp only
  have hall : ds.all (fun d => d.isSane) = true := List.all_eq_true.mpr c.sane
  have hfil : ds.filter (fun d => d.isSane && !d.deleted) = ds.filter (fun d => !d.deleted) := by
    refine List.filter_congr fun d hd => ?_
    rw [c.sane d hd]; rfl
  rw [hall, hfil, h3]
  simp only [Bool.and_self, if_true]
  rw [mount33, ← h1]

theorem Consistent33.first_lt {b cs ds} (c : Consistent33 b cs ds) : linkOf (sec33 b 272) < 560 := by
  have := c.cat
  generalize linkOf (sec33 b 272) = s at this
  cases this with
  | nil => omega
  | cons _ h1 _ => exact h1

theorem open33 {b cs ds} (c : Consistent33 b cs ds) : DImg.open b = .ok (mount33 b ds) := by
  unfold DImg.open
  rw [if_neg (by rw [c.size]; simp), getMetadata33 c rfl rfl rfl c.first_lt]

theorem mounted33_mount {b cs ds} (c : Consistent33 b cs ds) : Mounted33 (mount33 b ds) cs ds := ⟨open33 c, c⟩

theorem mounted33_iff {m cs ds} : Mounted33 m cs ds ↔ Consistent33 m.bytes cs ds ∧ m = mount33 m.bytes ds := by
  constructor
  · rintro ⟨h1, h2⟩
    have := open33 h2
    rw [h1] at this
    injection this with this
    exact ⟨h2, this⟩
  · rintro ⟨h1, h2⟩
    refine ⟨?_, h1⟩
    rw [open33 h1, ← h2]

theorem getDirectory33 {b cs ds} (c : Consistent33 b cs ds) : DImg.getDirectory (mount33 b ds) = (.ok ds, mount33 b ds) := by
  unfold DImg.getDirectory
  simp only [mount33]
  rw [c.catLoop]
  simp only
  have hall : ds.all (fun d => d.isSane) = true := List.all_eq_true.mpr c.sane
  have hfil : ds.filter (fun d => d.isSane && !d.deleted) = ds.filter (fun d => !d.deleted) := by
    refine List.filter_congr fun d hd => ?_
    rw [c.sane d hd]; rfl
  rw [hall, hfil]
  rfl

/-! ### reading -/

theorem ofData_full {d : Bytes} (h : d.length = 256) : (WSector.ofData 256 d).data = d := by
  rw [(ofData_data 256 d (by omega)).1, h]; simp

theorem tsLoop_eq {b : Bytes} (hb : b.length = 143360) {s ts} (h : Chain33 b s ts) : ∀ fuel, ts.length < fuel →
    tsLoop 560 b fuel s = .ok (ts.map fun t => (t, sec33 b t)) := by
  induction h with
  | nil => intro fuel hf; cases fuel with
    | zero => omega
    | succ fuel => rfl
  | @cons s ts h0 h1 h2 ih =>
    intro fuel hf
    cases fuel with
    | zero => omega
    | succ fuel =>
      simp only [tsLoop]
      rw [if_neg h0, if_neg (by omega), ofData_full (length_sec33 hb h1), ih fuel (by simpa using hf)]
      rfl

theorem FileSecs.tsMap {b : Bytes} {d ts map} (hb : b.length = 143360) (h : FileSecs b d ts map) (hne : map ≠ []) :
    d.tsMap 560 b = .ok (ts, map) := by
  have hc := h.chain.length_le
  unfold DDirent.tsMap
  rw [tsLoop_eq hb h.chain _ (by omega)]
  simp only
  have hlt : ts.length < d.numSectors := by
    refine Nat.lt_of_not_le fun hle => hne ?_
    rw [h.map, show d.numSectors - ts.length = 0 by omega, List.take_zero]
  have e1 : (List.map (fun t => (t, sec33 b t)) ts).map (·.1) = ts := by rw [List.map_map]; simp [Function.comp_def]
  have e2 : (List.map (fun t => (t, sec33 b t)) ts).flatMap (fun x => tsPairsOf x.2) = ts.flatMap fun t => tsPairsOf (sec33 b t) := by
    rw [List.flatMap_map]
  rw [e1, e2, List.length_map]
  unfold pySliceTo
  rw [if_pos (by omega), h.map]
  congr 3
  omega

theorem readPositions_eq : ∀ (l : List Nat), (∀ x ∈ l, x < 560) → readPositions 560 l = .ok (l.map (256 * ·)) := by
  intro l
  induction l with
  | nil => intro _; rfl
  | cons x l ih =>
    intro h
    simp only [readPositions]
    rw [if_neg (by have := h x (by simp); omega), ih (fun y hy => h y (by simp [hy]))]
    rfl

theorem FileSecs.getFile {b : Bytes} {d ts map} (hb : b.length = 143360) (h : FileSecs b d ts map) (hne : map ≠ [])
    (hs : d.isSane = true) (hm : ∀ x ∈ map, x < 560) : d.getFile 560 b = .ok (map.flatMap (sec33 b)) := by
  unfold DDirent.getFile
  rw [if_neg (by simp [hs]), h.tsMap hb hne]
  cases hmap : map with
  | nil => exact absurd hmap hne
  | cons x l =>
    rw [hmap] at hm
    simp only
    rw [readPositions_eq _ hm]
    simp only
    have hx := hm x (by simp)
    have he : ((x :: l).map (256 * ·)).flatMap (fun p => slice b p (p + 256)) = (x :: l).flatMap (sec33 b) := by
      rw [List.flatMap_map]; rfl
    rw [he, if_neg, if_neg (by omega)]
    rw [List.flatMap_cons]
    intro h0
    have h1 : (sec33 b x).length = 256 := by
      unfold sec33
      rw [length_slice]; omega
    rw [(List.append_eq_nil_iff.mp h0).1] at h1
    cases h1

theorem FileSecs.unique {b : Bytes} {d ts map ts' map'} (h : FileSecs b d ts map) (h' : FileSecs b d ts' map') : ts = ts' ∧ map = map' := by
  have := h.chain.unique h'.chain
  subst this
  exact ⟨rfl, by rw [h.map, h'.map]⟩

theorem FileSecs.frame {b b' : Bytes} {d d' ts map} (h : FileSecs b d ts map) (hf : ∀ t ∈ ts, sec33 b' t = sec33 b t)
    (h1 : d'.track = d.track) (h2 : d'.sector = d.sector) (h3 : d'.numSectors = d.numSectors) : FileSecs b' d' ts map := by
  refine ⟨?_, ?_⟩
  · rw [h1, h2]
    exact h.chain.frame (fun x hx => by rw [hf x hx])
  · rw [h.map, h3]
    congr 1
    clear h
    induction ts with
    | nil => rfl
    | cons t ts ih =>
      rw [List.flatMap_cons, List.flatMap_cons, hf t (by simp), ih (fun x hx => hf x (by simp [hx]))]

theorem flatMap_frame33 {b b' : Bytes} {l : List Nat} (hf : ∀ t ∈ l, sec33 b' t = sec33 b t) : l.flatMap (sec33 b') = l.flatMap (sec33 b) := by
  induction l with
  | nil => rfl
  | cons t ts ih => rw [List.flatMap_cons, List.flatMap_cons, hf t (by simp), ih (fun x hx => hf x (by simp [hx]))]

/-! ### entries of a consistent volume -/

theorem Consistent33.entry {b cs ds} (c : Consistent33 b cs ds) {i : Nat} {d : DDirent} (h : ds[i]? = some d) :
    d.Encodable ∧ d.filename.length ≤ 29 ∧ d.numSectors < 65536 ∧ d.fileNum = i ∧ d.isSane = d.sanityCheck 560 ∧ d.flag ≠ 0 := by
  rw [← c.dir] at h
  obtain ⟨e, _, h2, h3⟩ := scanCat_get _ _ _ _ h
  rw [Nat.zero_add] at h2
  obtain ⟨e1, e2, e3, e4, e5⟩ := encodable_parse i e
  rw [← h2] at e1 e2 e3 e4 e5
  exact ⟨e1, e2, e3, e4, e5, h3⟩

/-- an entry after rewriting: the lock is gone (a deleted entry gets flag 0xff), everything else stays -/
theorem Consistent33.reread {b cs ds} (c : Consistent33 b cs ds) {i : Nat} {d : DDirent} (h : ds[i]? = some d) :
    d.reread i = { d with locked := d.deleted, ftype := if d.deleted then 127 else d.ftype } := by
  obtain ⟨e1, e2, e3, e4, e5, _⟩ := c.entry h
  have hn := c.names d (List.mem_of_getElem? h)
  have hs := c.sane d (List.mem_of_getElem? h)
  unfold DDirent.reread
  simp only
  rw [List.take_of_length_le (by omega), hn, Nat.mod_eq_of_lt e3, e4]
  obtain ⟨fn, ft, lk, del, tr, se, nm, ns, sa⟩ := d
  simp only at *
  congr 1
  rw [e5]
  unfold DDirent.sanityCheck
  rfl

end Atr
