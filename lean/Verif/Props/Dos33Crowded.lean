import Verif.Props.Dos33Open
import Verif.Props.Dos33Frame
/-!
# C93: DOS 3.3 disks whose catalog is used to its last sector

`catEntries33 b cs` are the entries that are looked at, in the catalog sectors `cs` (`Spec/Dos33Open`).  Nothing is assumed of the
image except that it opens; in particular not that its number of sectors is 560, that files are intact, or that the bitmap is
right.
-/
namespace Atr

/-- the entries of the catalog that are looked at -/
def catSeen33 (b : Bytes) (cs : List Nat) : List Nat := cs.flatMap (seenEntries33 b)

/-- the catalog has an entry more than fits in all its sectors but the last -/
def Crowded33 (b : Bytes) (cs : List Nat) : Prop := Volume33 b cs ∧ 272 ∉ cs ∧ 7 * (cs.length - 1) < (catSeen33 b cs).length

theorem linkOf_sec33 (b : Bytes) (s : Nat) : linkOf (sec33 b s) = pairAt33 b s 1 := by
  unfold linkOf secOfTS pairAt33 secByte33
  rw [getD_sec33 (by omega), getD_sec33 (by omega), Nat.mul_comm]

theorem CatChain33.frame {n : Nat} {b b' : Bytes} {s cs} (h : CatChain33 n b s cs) (hf : ∀ x ∈ cs, sec33 b' x = sec33 b x) :
    CatChain33 n b' s cs := by
  induction h with
  | done => exact .done
  | @next s cs h0 h1 h2 _ ih =>
    refine .next h0 h1 h2 ?_
    rw [← linkOf_sec33, hf s (by simp), linkOf_sec33]
    exact ih fun x hx => hf x (by simp [hx])

/-- too few catalog sectors, whatever the number of sectors of the disk -/
theorem numberCat_crowded {n : Nat} {b : Bytes} (hb : b.length = 143360) : ∀ (ws : List WSector) {s : Nat} {cs : List Nat},
    CatChain33 n b s cs → s ≠ 0 → cs.length ≤ ws.length → numberCatSecs n b s ws = .error .noSpaceInDirectory := by
  intro ws
  induction ws with
  | nil =>
    intro s cs h h0 hl
    cases h with
    | done => exact absurd rfl h0
    | next _ _ _ _ => simp at hl
  | cons w ws ih =>
    intro s cs h hs hl
    cases h with
    | done => exact absurd rfl hs
    | @next _ cs h0 h1 h2 h3 =>
      have hlen := length_sec33 hb h2
      simp only [numberCatSecs]
      rw [if_neg (by omega), if_neg (by omega)]
      by_cases hz : linkOf (sec33 b s) = 0
      · rw [if_pos hz]
      · rw [if_neg hz, ih (by rw [linkOf_sec33]; exact h3) hz (by simpa using hl)]

/-- a catalog of so many entries cannot be written -/
theorem calcCat_crowded {m : DImg} {cs : List Nat} {ds : List DDirent} (hb : m.bytes.length = 143360)
    (hch : CatChain33 m.maxSectors m.bytes m.firstDir cs) (hne : cs ≠ []) (hl : 7 * (cs.length - 1) < ds.length) :
    m.calcCatSectors ds = .error .noSpaceInDirectory ∨ ∃ e, encodeAll33 ds = .error e ∧ m.calcCatSectors ds = .error e := by
  unfold DImg.calcCatSectors
  cases he : encodeAll33 ds with
  | error e => exact .inr ⟨e, rfl, rfl⟩
  | ok encs =>
    obtain ⟨e2, e3⟩ := encodeAll33_length _ _ he
    refine .inl (numberCat_crowded hb _ hch ?_ ?_)
    · intro h0
      rw [h0] at hch
      cases hch with
      | done => exact hne rfl
      | next h _ _ _ => exact h rfl
    · have hnee : encs ≠ [] := by intro h; rw [h] at e2; simp at e2; omega
      have hwl : (calcSectors freshCatSec encs).length = (chunks 7 encs).length := by
        have := congrArg List.length (calcSectors33 hnee e3); simpa using this
      rw [hwl, length_chunks 7 (by omega), e2]
      have := List.length_pos_iff.mpr hne
      omega

/-- `b'` differs from `b` in sector 272 at most -/
structure VtocOnly (b b' : Bytes) : Prop where
  size : b'.length = b.length
  others : ∀ s, s ≠ 272 → sec33 b' s = sec33 b s

theorem VtocOnly.refl (b : Bytes) : VtocOnly b b := ⟨rfl, fun _ _ => rfl⟩

theorem VtocOnly.store {b0 b : Bytes} (hb : b0.length = 143360) (h : VtocOnly b0 b) (map : List Bool) :
    VtocOnly b0 (splice b (256 * 272) (vtocStore33 (sec33 b 272) map)) := by
  have hl : b.length = 143360 := h.size.trans hb
  have hv := length_vtocStore33 (length_sec33 hl (by omega : 272 < 560)) map
  refine ⟨by rw [length_splice _ _ _ (by rw [hv, hl]; omega)]; exact h.size, fun s hs => ?_⟩
  rw [sec33_splice_other hl (by omega) hv hs]
  exact h.others s hs

theorem transaction33_outcome {body : Proc DImg Unit} {m m1 : DImg} {e : Err} (h : body m = (.error e, m1)) (ho : VtocOnly m.bytes m1.bytes) :
    ∃ e' m', DImg.transaction body m = (.error e', m') ∧ VtocOnly m.bytes m'.bytes := by
  unfold DImg.transaction
  simp only
  rw [h]
  simp only
  generalize hm2 : (if e.isAtr = true then m1.rollback ⟨0, m.bytes.length⟩ else m1) = m2
  have hb2 : m2.bytes = m1.bytes := by
    rw [← hm2]
    by_cases he : e.isAtr = true
    · rw [if_pos he]; exact rollback33_bytes ho.size.symm
    · rw [if_neg he]
  generalize hg : DImg.getMetadata m2 = y
  obtain ⟨r, m3⟩ := y
  have hb3 := getMetadata33_bytes hg
  have : VtocOnly m.bytes m3.bytes := by rw [hb3, hb2]; exact ho
  cases r with
  | ok u => exact ⟨_, _, rfl, this⟩
  | error e' => exact ⟨_, _, rfl, this⟩

theorem getDirectory_seen {b : Bytes} {cs : List Nat} (v : Volume33 b cs) {m : DImg} (h1 : m.bytes = b) (h2 : m.maxSectors = sectors33 b)
    (h3 : m.firstDir = pairAt33 b 272 1) : ∃ ds files s, DImg.getDirectory m = (.ok ds, { m with files := files, allSane := s }) ∧
      ds = catList33 (sectors33 b) b cs 0 ∧ ds.length = (catSeen33 b cs).length := by
  refine ⟨catList33 (sectors33 b) b cs 0, (catList33 (sectors33 b) b cs 0).filter (fun d => d.isSane && !d.deleted),
    m.allSane && (catList33 (sectors33 b) b cs 0).all (·.isSane), ?_, rfl, ?_⟩
  · unfold DImg.getDirectory
    rw [h1, h2, h3, catLoop_of_chain v.size 0 v.chain]
  · unfold catList33 catSeen33
    rw [List.length_map, List.length_zipIdx]

theorem deleteBody_crowded {b : Bytes} {cs : List Nat} (v : Volume33 b cs) (hv : 272 ∉ cs) (hl : 7 * (cs.length - 1) < (catSeen33 b cs).length)
    {m : DImg} (h1 : m.bytes = b) (h2 : m.maxSectors = sectors33 b) (h3 : m.firstDir = pairAt33 b 272 1) (name : Bytes) :
    ∃ e m', DImg.deleteBody name m = (.error e, m') ∧ VtocOnly b m'.bytes := by
  obtain ⟨ds, files, s, g1, g2, g3⟩ := getDirectory_seen v h1 h2 h3
  have hne : cs ≠ [] := by rintro rfl; simp [catSeen33] at hl
  unfold DImg.deleteBody
  rw [g1]
  simp only
  have hb := v.size
  cases findDirentIdx33 ds name with
  | error e => exact ⟨_, _, rfl, h1 ▸ .refl _⟩
  | ok q =>
    obtain ⟨i, d⟩ := q
    simp only
    cases d.sectorsInVtoc m.maxSectors m.bytes with
    | error e => exact ⟨_, _, rfl, h1 ▸ .refl _⟩
    | ok secs =>
      simp only
      generalize ({ m with files := files, allSane := s } : DImg).getVtocMap = y
      cases y with
      | error e => exact ⟨_, _, rfl, h1 ▸ .refl _⟩
      | ok map =>
        simp only
        cases freeSectors secs map with
        | error e => exact ⟨_, _, rfl, h1 ▸ .refl _⟩
        | ok map' =>
          simp only
          obtain ⟨w, c1, _, _⟩ := calcBitmap33 (m := { m with files := files, allSane := s }) (by rw [h1]; exact hb) map'
          rw [c1]
          simp only
          have ho : VtocOnly b (splice m.bytes (256 * 272) (vtocStore33 (sec33 m.bytes 272) map')) := by
            rw [h1]; exact VtocOnly.store hb (.refl _) map'
          generalize hbA : splice m.bytes (256 * 272) (vtocStore33 (sec33 m.bytes 272) map') = bA at ho
          rcases calcCat_crowded (m := { m with files := files, allSane := s, bytes := bA }) (cs := cs) (ds := ds.set i d.markDeleted)
            (ho.size.trans hb)
            (by show CatChain33 m.maxSectors bA m.firstDir cs
                rw [h2, h3]
                exact v.chain.frame fun x hx => ho.others x (fun h => hv (h ▸ hx))) hne
            (by rw [List.length_set, g3]; exact hl) with h | ⟨e, _, h⟩ <;> rw [h] <;> exact ⟨_, _, rfl, ho⟩

/-- **C93, deleting.** On a DOS 3.3 disk with an entry more than fits in all catalog sectors but the last, `delete_file` fails for
every name, and nothing but the VTOC is changed in memory. -/
theorem C93_delete {b : Bytes} {cs : List Nat} {m : DImg} (hm : DImg.open b = .ok m) (hc : Crowded33 b cs) (name : Bytes) :
    ∃ e m', DImg.deleteFile name m = (.error e, m') ∧ VtocOnly b m'.bytes := by
  obtain ⟨v, hv, hl⟩ := hc
  obtain ⟨cs', v', h1, h2, h3, _⟩ := C77_opens b m hm
  obtain ⟨e, m', k1, k2⟩ := deleteBody_crowded v hv hl h1 h3 h2 name
  have := transaction33_outcome k1 (h1.symm ▸ k2)
  rw [h1] at this
  exact this

theorem getFreeDirent33_length {ds : List DDirent} {d : DDirent} :
    (setDirent33 ds (getFreeDirent33 ds) d).length = if ∃ x ∈ ds, x.deleted = true then ds.length else ds.length + 1 := by
  unfold setDirent33 getFreeDirent33
  cases hf : ds.findIdx? (·.deleted) with
  | some i =>
    obtain ⟨hi, hd, _⟩ := List.findIdx?_eq_some_iff_getElem.mp hf
    simp only
    rw [if_pos hi, List.length_set, if_pos ⟨_, List.getElem_mem hi, hd⟩]
  | none =>
    have := List.findIdx?_eq_none_iff.mp hf
    simp only
    rw [if_neg (by omega), if_neg]
    · simp
    · rintro ⟨x, hx, hd⟩
      have h := this x hx
      rw [hd] at h
      cases h

/-- entries of the catalog once a file has been added: the first entry marked as deleted is used again -/
def entriesNeeded33 (b : Bytes) (cs : List Nat) : Nat :=
  if ∃ p ∈ catSeen33 b cs, byteOf b p = 255 then (catSeen33 b cs).length else (catSeen33 b cs).length + 1

theorem catList33_deleted (n : Nat) (b : Bytes) (cs : List Nat) :
    (∃ x ∈ catList33 n b cs 0, x.deleted = true) ↔ ∃ p ∈ catSeen33 b cs, byteOf b p = 255 := by
  unfold catList33 catSeen33
  generalize cs.flatMap (seenEntries33 b) = l
  constructor
  · rintro ⟨x, hx, hd⟩
    obtain ⟨y, hy, rfl⟩ := List.mem_map.mp hx
    rw [entryAt33_deleted] at hd
    exact ⟨y.1, zipIdx_mem hy, by simpa using hd⟩
  · rintro ⟨p, hp, hd⟩
    obtain ⟨i, hi, rfl⟩ := List.getElem_of_mem hp
    refine ⟨entryAt33 n b i l[i], List.mem_map.mpr ⟨(l[i], i), ?_, rfl⟩, by rw [entryAt33_deleted]; simpa using hd⟩
    rw [List.mem_iff_getElem]
    exact ⟨i, by rw [List.length_zipIdx]; exact hi, by rw [List.getElem_zipIdx]; simp⟩

theorem writeBody_crowded {b : Bytes} {cs : List Nat} (v : Volume33 b cs) (hv : 272 ∉ cs) (hne : cs ≠ [])
    (hl : 7 * (cs.length - 1) < entriesNeeded33 b cs)
    {m : DImg} (h1 : m.bytes = b) (h2 : m.maxSectors = sectors33 b) (h3 : m.firstDir = pairAt33 b 272 1) (name : Bytes) (ftype : Nat) (data : Bytes) :
    ∃ e m', DImg.writeBody name ftype data m = (.error e, m') ∧ VtocOnly b m'.bytes := by
  obtain ⟨ds, files, s, g1, g2, g3⟩ := getDirectory_seen v h1 h2 h3
  unfold DImg.writeBody
  rw [g1]
  simp only
  have hb := v.size
  generalize ({ m with files := files, allSane := s } : DImg).getVtocMap = y
  cases y with
  | error e => exact ⟨_, _, rfl, h1 ▸ .refl _⟩
  | ok map =>
    simp only
    cases reserve (buildSectors33 data).length map with
    | error e => exact ⟨_, _, rfl, h1 ▸ .refl _⟩
    | ok q =>
      obtain ⟨order, map1⟩ := q
      simp only
      obtain ⟨w, c1, _, _⟩ := calcBitmap33 (m := { m with files := files, allSane := s }) (by rw [h1]; exact hb) map1
      rw [c1]
      simp only
      have ho : VtocOnly b (splice m.bytes (256 * 272) (vtocStore33 (sec33 m.bytes 272) map1)) := by
        rw [h1]; exact VtocOnly.store hb (.refl _) map1
      generalize splice m.bytes (256 * 272) (vtocStore33 (sec33 m.bytes 272) map1) = bA at ho
      generalize buildTsList m.tsPairs _ = y
      cases y with
      | error e => exact ⟨_, _, rfl, ho⟩
      | ok tl =>
        simp only
        generalize reserve tl.length map1 = y
        cases y with
        | error e => exact ⟨_, _, rfl, ho⟩
        | ok q =>
          obtain ⟨order2, map2⟩ := q
          simp only
          obtain ⟨w2, c2, _, _⟩ := calcBitmap33 (m := { m with files := files, allSane := s, bytes := bA }) (ho.size.trans hb) map2
          simp only at c2
          rw [c2]
          simp only
          have ho2 : VtocOnly b (splice bA (256 * 272) (vtocStore33 (sec33 bA 272) map2)) := VtocOnly.store hb ho map2
          generalize splice bA (256 * 272) (vtocStore33 (sec33 bA 272) map2) = bB at ho2
          generalize linkSectors WSector.setNext33 0 tl order2 = y
          cases y with
          | nil => exact ⟨_, _, rfl, ho2⟩
          | cons t0 ts =>
            simp only
            generalize hd : ({ DDirent.setValues name ftype with
                    track := UInt8.ofNat (t0.num / 16)
                    sector := UInt8.ofNat (t0.num % 16)
                    numSectors := _ } : DDirent) = d
            rcases calcCat_crowded (m := { m with files := files, allSane := s, bytes := bB }) (cs := cs)
              (ds := setDirent33 ds (getFreeDirent33 ds) d) (ho2.size.trans hb)
              (by show CatChain33 m.maxSectors bB m.firstDir cs
                  rw [h2, h3]
                  exact v.chain.frame fun x hx => ho2.others x (fun h => hv (h ▸ hx))) hne
              (by rw [getFreeDirent33_length, g3]
                  have := catList33_deleted (sectors33 b) b cs
                  rw [← g2] at this
                  unfold entriesNeeded33 at hl
                  by_cases hx : ∃ p ∈ catSeen33 b cs, byteOf b p = 255
                  · rw [if_pos (this.mpr hx)]; rw [if_pos hx] at hl; exact hl
                  · rw [if_neg (fun h => hx (this.mp h))]; rw [if_neg hx] at hl; exact hl) with h | ⟨e, _, h⟩ <;> rw [h] <;> exact ⟨_, _, rfl, ho2⟩

/-- **C93, adding.** `write_file` fails for every name, type and contents if the entries of the catalog with the new one are more
than fit in all catalog sectors but the last. -/
theorem C93_write {b : Bytes} {cs : List Nat} {m : DImg} (hm : DImg.open b = .ok m) (v : Volume33 b cs) (hv : 272 ∉ cs) (hne : cs ≠ [])
    (hl : 7 * (cs.length - 1) < entriesNeeded33 b cs) (name : Bytes) (ftype : Nat) (data : Bytes) :
    ∃ e m', DImg.writeFile name ftype data m = (.error e, m') ∧ VtocOnly b m'.bytes := by
  obtain ⟨cs', v', h1, h2, h3, _⟩ := C77_opens b m hm
  obtain ⟨e, m', k1, k2⟩ := writeBody_crowded v hv hne hl h1 h3 h2 name ftype data
  have := transaction33_outcome k1 (h1.symm ▸ k2)
  rw [h1] at this
  exact this

/-! ### the command line -/

theorem addLoop_same {σ : Type} (D : Driver σ) (o : Opts) {m : σ} (hw : ∀ name data, ∃ e m', D.write name data m = (.error e, m'))
    (hd : ∀ name, D.find m name = .ok () → ∃ e m', D.delete name m = (.error e, m') ∧ e ≠ .fileNotFound) :
    ∀ (fs : List (Bytes × Bytes)) (m1 : σ) (c : Bool), addLoop D o fs false m = (.ok c, m1) → c = false := by
  have hfin : ∀ name data r, finishSave D o name data m = r → (r = (.ok false, m) ∨ ∃ e m', r = (.error e, m')) := by
    intro name data r h
    subst h
    unfold finishSave
    cases o.dryRun with
    | true => exact .inl rfl
    | false =>
      obtain ⟨e, m', he⟩ := hw name data
      simp only [Bool.false_eq_true, if_false]
      rw [he]
      exact .inr ⟨_, _, rfl⟩
  have hsave : ∀ name data r, saveFile D o name data m = r → (r = (.ok false, m) ∨ ∃ e m', r = (.error e, m')) := by
    intro name data r h
    subst h
    unfold saveFile
    cases hf : D.find m name with
    | error e =>
      cases e <;> first | exact hfin name data _ rfl | exact .inr ⟨_, _, rfl⟩
    | ok u =>
      simp only
      cases o.force with
      | false => exact .inl rfl
      | true =>
        obtain ⟨e, m', he, hs⟩ := hd name hf
        simp only [if_true]
        rw [he]
        cases e <;> first | exact .inr ⟨_, _, rfl⟩ | exact absurd rfl hs
  intro fs
  induction fs with
  | nil => intro m1 c h; cases h; rfl
  | cons f fs ih =>
    intro m1 c h
    obtain ⟨name, data⟩ := f
    simp only [addLoop] at h
    rcases hsave name data _ rfl with hs | ⟨e, m', hs⟩ <;> rw [hs] at h
    · exact ih m1 c h
    · cases h

theorem removeLoop_same {σ : Type} (D : Driver σ) (o : Opts) {m : σ} (hd : ∀ name, ∃ e m', D.delete name m = (.error e, m')) :
    ∀ (ns : List Bytes) (m1 : σ) (c : Bool), removeLoop D o ns false m = (.ok c, m1) → c = false := by
  intro ns
  induction ns with
  | nil => intro m1 c h; cases h; rfl
  | cons n ns ih =>
    intro m1 c h
    simp only [removeLoop] at h
    cases hf : D.find m n with
    | error e =>
      rw [hf] at h
      cases e <;> first | exact ih m1 c h | cases h
    | ok u =>
      rw [hf] at h
      simp only at h
      cases hdry : o.dryRun with
      | true => rw [hdry] at h; exact ih m1 c h
      | false =>
        rw [hdry] at h
        obtain ⟨e, m', he⟩ := hd n
        simp only [Bool.false_eq_true, if_false] at h
        rw [he] at h
        cases h

theorem tsLoop_not_missing {n : Nat} {b : Bytes} : ∀ fuel s, tsLoop n b fuel s ≠ .error .fileNotFound := by
  intro fuel
  induction fuel with
  | zero => intro s h; cases h
  | succ fuel ih =>
    intro s h
    simp only [tsLoop] at h
    by_cases h0 : s = 0
    · rw [if_pos h0] at h; cases h
    rw [if_neg h0] at h
    by_cases h1 : s < n
    · rw [if_neg (not_not_intro h1)] at h
      generalize hy : tsLoop n b fuel _ = y at h
      cases y with
      | error e => exact ih _ (hy.trans (by cases h; rfl))
      | ok l => cases h
    · rw [if_pos h1] at h; cases h

theorem sectorsInVtoc_not_missing {n : Nat} {b : Bytes} {d : DDirent} : d.sectorsInVtoc n b ≠ .error .fileNotFound := by
  intro h
  unfold DDirent.sectorsInVtoc DDirent.tsMap at h
  generalize hy : tsLoop n b (n + 1) _ = y at h
  cases y with
  | error e => exact tsLoop_not_missing _ _ (hy.trans (by cases h; rfl))
  | ok l => cases h

theorem catLoop_not_missing {n : Nat} {b : Bytes} : ∀ fuel s num, catLoop n b fuel s num ≠ .error .fileNotFound := by
  intro fuel
  induction fuel with
  | zero => intro s num h; cases h
  | succ fuel ih =>
    intro s num h
    simp only [catLoop] at h
    by_cases h0 : s = 0
    · rw [if_pos h0] at h; cases h
    rw [if_neg h0] at h
    by_cases h1 : s < n
    · rw [if_neg (not_not_intro h1)] at h
      by_cases h2 : (sec33 b s).length ≠ 256
      · rw [if_pos h2] at h; cases h
      rw [if_neg h2] at h
      generalize hy : catLoop n b fuel _ _ = y at h
      cases y with
      | error e => exact ih _ _ (hy.trans (by cases h; rfl))
      | ok l => cases h
    · rw [if_pos h1] at h; cases h

theorem getSec33_not_missing {n : Nat} {b : Bytes} {s : Nat} : getSec33 n b s ≠ .error .fileNotFound := by
  unfold getSec33
  split <;> intro h <;> cases h

theorem getMetadata33_not_missing {m : DImg} : (DImg.getMetadata m).1 ≠ .error .fileNotFound := by
  intro h
  unfold DImg.getMetadata at h
  cases hb : m.getBootInfo with
  | error e =>
    rw [hb] at h
    cases h
    unfold DImg.getBootInfo at hb
    repeat' split at hb
    all_goals cases hb
    all_goals (rename_i h; exact getSec33_not_missing h)
  | ok u =>
    rw [hb] at h
    simp only at h
    generalize hv : DImg.getVtoc m = y at h
    obtain ⟨r, m1⟩ := y
    cases r with
    | error e =>
      cases h
      unfold DImg.getVtoc at hv
      cases hs : getSec33 m.maxSectors m.bytes 272 with
      | error e => rw [hs] at hv; exact getSec33_not_missing (hs.trans (by cases hv; rfl))
      | ok d =>
        rw [hs] at hv
        simp only at hv
        split at hv <;> cases hv
    | ok u =>
      simp only at h
      generalize hd : DImg.getDirectory m1 = y at h
      obtain ⟨r, m2⟩ := y
      cases r with
      | error e =>
        cases h
        unfold DImg.getDirectory at hd
        cases hc : catLoop m1.maxSectors m1.bytes (m1.maxSectors + 1) m1.firstDir 0 with
        | error e => rw [hc] at hd; exact catLoop_not_missing _ _ _ (hc.trans (by cases hd; rfl))
        | ok ds => rw [hc] at hd; cases hd
      | ok ds =>
        simp only at h
        split at h <;> cases h

theorem freeSectors_not_missing : ∀ (l : List Nat) (map : List Bool), freeSectors l map ≠ .error .fileNotFound := by
  intro l
  induction l with
  | nil => intro map h; cases h
  | cons n l ih =>
    intro map h
    simp only [freeSectors] at h
    by_cases hn : n < map.length
    · rw [if_pos hn] at h; exact ih _ h
    · rw [if_neg hn] at h; cases h

theorem encodeAll33_not_missing : ∀ (ds : List DDirent), encodeAll33 ds ≠ .error .fileNotFound := by
  intro ds
  induction ds with
  | nil => intro h; cases h
  | cons d ds ih =>
    intro h
    simp only [encodeAll33] at h
    cases hd : d.encode with
    | error e =>
      rw [hd] at h
      cases h
      unfold DDirent.encode at hd
      by_cases h1 : ¬ ∀ c ∈ d.filename, c < 0x80
      · rw [if_pos h1] at hd; cases hd
      rw [if_neg h1] at hd
      by_cases h2 : 30 < d.filename.length
      · rw [if_pos h2] at hd; cases hd
      · rw [if_neg h2] at hd; cases hd
    | ok x =>
      rw [hd] at h
      simp only at h
      cases hs : encodeAll33 ds with
      | error e => rw [hs] at h; cases h; exact ih hs
      | ok xs => rw [hs] at h; cases h

/-- a listed file is found by `delete_file`, so the failure is of another kind -/
theorem delete_crowded_error {b : Bytes} {cs : List Nat} {m : DImg} (hm : DImg.open b = .ok m) (hc : Crowded33 b cs) {name : Bytes}
    (hn : name ∈ m.names) {e : Err} {m' : DImg} (h : DImg.deleteFile name m = (.error e, m')) : e ≠ .fileNotFound := by
  rintro rfl
  obtain ⟨v, hv, hl⟩ := hc
  obtain ⟨_, h1, _, ds0, hcl, hfi, _⟩ := open33_ok hm
  obtain ⟨_, _, _, h3, h2, _⟩ := C77_opens b m hm
  have hne : cs ≠ [] := by rintro rfl; simp [catSeen33] at hl
  have hb := v.size
  obtain ⟨ds, files, s, g1, g2, g3⟩ := getDirectory_seen v h1 h2 h3
  have hds : ds0 = ds := by
    rw [h2, h3, catLoop_of_chain v.size 0 v.chain] at hcl
    injection hcl with hcl
    rw [← hcl, g2]
  subst hds
  have hfind : ∃ q, findDirentIdx33 ds0 name = .ok q := by
    unfold findDirentIdx33
    unfold DImg.names at hn
    rw [hfi] at hn
    obtain ⟨d, hd, rfl⟩ := List.mem_map.mp hn
    have hd := (List.mem_filter.mp hd).1
    cases hx : ds0.findIdx? (fun e => e.filename == d.filename) with
    | some i => exact ⟨_, rfl⟩
    | none => have := List.findIdx?_eq_none_iff.mp hx d hd; simp at this
  obtain ⟨⟨i, d⟩, hfind⟩ := hfind
  -- the body
  have hbody : ∃ e m1, DImg.deleteBody name m = (.error e, m1) ∧ e ≠ .fileNotFound := by
    unfold DImg.deleteBody
    rw [g1]
    simp only
    rw [hfind]
    simp only
    cases hs : d.sectorsInVtoc m.maxSectors m.bytes with
    | error e => exact ⟨_, _, rfl, fun he => sectorsInVtoc_not_missing (he ▸ hs)⟩
    | ok secs =>
      simp only
      generalize hy : ({ m with files := files, allSane := s } : DImg).getVtocMap = y
      cases y with
      | error e =>
        refine ⟨_, _, rfl, fun he => ?_⟩
        unfold DImg.getVtocMap at hy
        cases hg : getSec33 m.maxSectors m.bytes 272 with
        | error e' => simp only [hg] at hy; cases hy; exact getSec33_not_missing (he ▸ hg)
        | ok d => simp only [hg] at hy; cases hy
      | ok map =>
        simp only
        cases hfr : freeSectors secs map with
        | error e => exact ⟨_, _, rfl, fun he => freeSectors_not_missing _ _ (he ▸ hfr)⟩
        | ok map' =>
          simp only
          obtain ⟨w, c1, _, _⟩ := calcBitmap33 (m := { m with files := files, allSane := s }) (by rw [h1]; exact hb) map'
          rw [c1]
          simp only
          have ho : VtocOnly b (splice m.bytes (256 * 272) (vtocStore33 (sec33 m.bytes 272) map')) := by
            rw [h1]; exact VtocOnly.store hb (.refl _) map'
          generalize splice m.bytes (256 * 272) (vtocStore33 (sec33 m.bytes 272) map') = bA at ho
          rcases calcCat_crowded (m := { m with files := files, allSane := s, bytes := bA }) (cs := cs) (ds := ds0.set i d.markDeleted)
            (ho.size.trans hb)
            (by show CatChain33 m.maxSectors bA m.firstDir cs
                rw [h2, h3]
                exact v.chain.frame fun x hx => ho.others x (fun h => hv (h ▸ hx))) hne
            (by rw [List.length_set, g3]; exact hl) with h | ⟨e, he, h⟩ <;> rw [h]
          · exact ⟨_, _, rfl, by simp⟩
          · exact ⟨_, _, rfl, fun hh => encodeAll33_not_missing _ (hh ▸ he)⟩
  obtain ⟨e, m1, k1, k2⟩ := hbody
  unfold DImg.deleteFile DImg.transaction at h
  simp only at h
  rw [k1] at h
  simp only at h
  generalize (if e.isAtr = true then m1.rollback ⟨0, m.bytes.length⟩ else m1) = m2 at h
  generalize hg : DImg.getMetadata m2 = y at h
  obtain ⟨r, m3⟩ := y
  cases r with
  | ok u => cases h; exact k2 rfl
  | error e' => cases h; exact getMetadata33_not_missing (congrArg Prod.fst hg)

/-- **C93, the command line.** Neither adding nor deleting, with or without `-f`, whatever the files and their number, ever changes
such a disk. -/
theorem C93_run {b : Bytes} {cs : List Nat} (hc : Crowded33 b cs) (t : Char) (o : Opts) (c : Cmd) (hs : c ≠ .shred) :
    (c.run (dos33Driver t) o b).2 = b := by
  unfold Cmd.run
  cases hl : (dos33Driver t).load b with
  | error e => rfl
  | ok m =>
    have hm : DImg.open b = .ok m := hl
    simp only
    have hne : cs ≠ [] := by rintro rfl; have := hc.2.2; simp [catSeen33] at this
    have hw : ∀ name data, ∃ e m', (dos33Driver t).write name data m = (.error e, m') := by
      intro name data
      obtain ⟨e, m', h, _⟩ := C93_write hm hc.1 hc.2.1 hne
        (by have := hc.2.2; unfold entriesNeeded33; split <;> omega) name (textToType33 t) data
      exact ⟨e, m', h⟩
    have hd : ∀ name, ∃ e m', (dos33Driver t).delete name m = (.error e, m') := by
      intro name
      obtain ⟨e, m', h, _⟩ := C93_delete hm hc name
      exact ⟨e, m', h⟩
    have hd' : ∀ name, (dos33Driver t).find m name = .ok () → ∃ e m', (dos33Driver t).delete name m = (.error e, m') ∧ e ≠ .fileNotFound := by
      intro name hf
      obtain ⟨e, m', h⟩ := hd name
      refine ⟨e, m', h, delete_crowded_error hm hc (name := name) ?_ h⟩
      have hf : (m.findDirent name).map (fun _ => ()) = .ok () := hf
      unfold DImg.findDirent at hf
      cases hx : m.files.find? (fun d => d.filename == name) with
      | none => rw [hx] at hf; cases hf
      | some d =>
        have h1 := List.mem_of_find?_eq_some hx
        have h2 := List.find?_some hx
        exact List.mem_map.mpr ⟨d, h1, by simpa using h2⟩
    have key : ∀ c' m1, c.exec (dos33Driver t) o m = (.ok c', m1) → c' = false := by
      intro c' m1 h
      cases c with
      | add files => exact addLoop_same _ o hw hd' files m1 c' h
      | remove names => exact removeLoop_same _ o hd names m1 c' h
      | shred => exact absurd rfl hs
    generalize hx : c.exec (dos33Driver t) o m = y
    obtain ⟨r, m1⟩ := y
    cases r with
    | error e => rfl
    | ok c' => have := key _ _ hx; subst this; rfl

/-! ### what a failing delete leaves behind in memory -/

theorem catLoop_frame {n : Nat} {b b' : Bytes} {s cs} (h : CatChain33 n b s cs) (hf : ∀ x ∈ cs, sec33 b' x = sec33 b x) :
    ∀ fuel num, catLoop n b' fuel s num = catLoop n b fuel s num := by
  induction h with
  | done =>
    intro fuel num
    cases fuel with
    | zero => rfl
    | succ fuel => simp only [catLoop, if_true]
  | @next s cs h0 h1 h2 _ ih =>
    intro fuel num
    cases fuel with
    | zero => rfl
    | succ fuel =>
      simp only [catLoop]
      rw [hf s (by simp), linkOf_sec33]
      simp only [ih (fun x hx => hf x (by simp [hx]))]

/-- re-reading the image after the VTOC's bitmap was changed -/
theorem open33_vtoc {b b' : Bytes} {cs : List Nat} {m : DImg} (hm : DImg.open b = .ok m) (v : Volume33 b cs) (hv : 272 ∉ cs)
    (ho : VtocOnly b b') (hk : VtocKept b b') : DImg.open b' = .ok { m with bytes := b' } := by
  have hb := v.size
  have hb' := ho.size.trans hb
  have hsec : ∀ i, i < 0x38 → secByte33 b' 272 i = secByte33 b 272 i := by
    intro i hi
    have := hk.keep i hi
    rw [getD_sec33 (by omega), getD_sec33 (by omega)] at this
    unfold secByte33
    rw [this]
  have hboot : BootOk33 b' ↔ BootOk33 b := by
    unfold BootOk33
    have ht : b'.take 4 = b.take 4 := by
      have := congrArg (List.take 4) (ho.others 0 (by omega))
      unfold sec33 at this
      simpa [slice, List.take_take] using this
    rw [ht, hsec 3 (by omega), hsec 1 (by omega), hsec 2 (by omega)]
  have hn : sectors33 b' = sectors33 b := by unfold sectors33; rw [hsec _ (by omega), hsec _ (by omega)]
  have hp : pairAt33 b' 272 1 = pairAt33 b 272 1 := by unfold pairAt33; rw [hsec _ (by omega), hsec _ (by omega)]
  have hc := catLoop_frame v.chain (b' := b') (fun x hx => ho.others x (fun h => hv (h ▸ hx)))
  rw [open33_eq hb, if_pos v.boot, if_pos v.start] at hm
  rw [open33_eq hb', if_pos (hboot.mpr v.boot), hp, hn, if_pos v.start, hc, hsec _ (by omega)]
  cases hx : catLoop (sectors33 b) b (sectors33 b + 1) (pairAt33 b 272 1) 0 with
  | error e => rw [hx] at hm; cases hm
  | ok ds =>
    rw [hx] at hm
    simp only at hm ⊢
    by_cases ha : ds.all (·.isSane) = true
    · rw [if_pos ha] at hm ⊢
      injection hm with hm
      rw [← hm]
    · rw [if_neg ha] at hm; cases hm

theorem getMetadata33_of_open {b : Bytes} {m m2 : DImg} (hm : DImg.open b = .ok m) (h1 : m2.bytes = b) (h2 : m2.maxSectors = 560)
    (h3 : m2.allSane = true) : DImg.getMetadata m2 = (.ok (), m) := by
  have hb := (open33_ok hm).1
  unfold DImg.open at hm
  rw [if_neg (by omega)] at hm
  obtain ⟨by2, fd, ms, tp, fl, sn⟩ := m2
  simp only at h1 h2 h3
  subst h1 h2 h3
  unfold DImg.getMetadata at hm ⊢
  have hbi : DImg.getBootInfo { bytes := by2, firstDir := fd, maxSectors := 560, tsPairs := tp, files := fl, allSane := true } =
    DImg.getBootInfo { bytes := by2 } := rfl
  rw [hbi]
  cases hbo : DImg.getBootInfo { bytes := by2 } with
  | error e => rw [hbo] at hm; cases hm
  | ok u =>
    rw [hbo] at hm
    simp only at hm ⊢
    unfold DImg.getVtoc at hm ⊢
    simp only at hm ⊢
    cases hs : getSec33 560 by2 272 with
    | error e => rw [hs] at hm; cases hm
    | ok d =>
      rw [hs] at hm
      simp only at hm ⊢
      by_cases hf : secOfTS (d.getD 1 0) (d.getD 2 0) < (d.getD 0x34 0).toNat * (d.getD 0x35 0).toNat
      · rw [if_pos hf] at hm ⊢
        simp only at hm ⊢
        unfold DImg.getDirectory at hm ⊢
        simp only at hm ⊢
        generalize catLoop _ by2 _ _ 0 = y at hm ⊢
        cases y with
        | error e => cases hm
        | ok ds =>
          simp only at hm ⊢
          by_cases ha : (true && ds.all (·.isSane)) = true
          · rw [if_pos ha] at hm ⊢
            injection hm with hm
            rw [hm]
          · rw [if_neg ha] at hm; cases hm
      · rw [if_neg hf] at hm; cases hm

theorem parseName_info {n : Nat} {b : Bytes} {k p : Nat} : (entryAt33 n b k p).filename = (fileInfo33 b p).name := by
  show parseName33 (slice b p (p + 35)) = _
  unfold parseName33 fileInfo33
  rw [slice_slice]
  simp only
  congr 4
  omega

/-- **C93, what a failing delete leaves behind.** `p` is the first entry with that name and not marked as deleted, `ts` are the
sectors of its track/sector list.  The delete ends with `NoSpaceInDirectory`; in memory the file is still in the catalog, and its
sectors are marked as free. -/
theorem C93_delete_frees {b : Bytes} {cs : List Nat} {m : DImg} (hm : DImg.open b = .ok m) (hc : Crowded33 b cs) (hn : sectors33 b = 560)
    {name : Bytes} {pre post : List Nat} {p : Nat} (hp : catSeen33 b cs = pre ++ p :: post) (hl : byteOf b p ≠ 255)
    (hname : (fileInfo33 b p).name = name) (hpre : ∀ q ∈ pre, (fileInfo33 b q).name ≠ name)
    {ts : List Nat} (hts : ListChain33 560 b (fileInfo33 b p).first ts)
    (hsec : ∀ s ∈ ts ++ dataSectors33 b (fileInfo33 b p).sectors ts, s < 800) :
    ∃ b', DImg.deleteFile name m = (.error .noSpaceInDirectory, { m with bytes := b' }) ∧ VtocOnly b b' ∧
      DImg.open b' = .ok { m with bytes := b' } ∧
      ∀ s, IsFree33 b' s ↔ IsFree33 b s ∨ s ∈ ts ++ dataSectors33 b (fileInfo33 b p).sectors ts := by
  obtain ⟨v, hv, hcr⟩ := hc
  have hb := v.size
  obtain ⟨_, h1, _, ds0, hcl, hfi, hsane⟩ := open33_ok hm
  obtain ⟨_, _, _, h3, h2, _⟩ := C77_opens b m hm
  have hne : cs ≠ [] := by rintro rfl; simp [catSeen33] at hcr
  have hmax : m.maxSectors = 560 := h2.trans hn
  have hallS : m.allSane = true := by
    have := hm
    rw [open33_eq hb, if_pos v.boot, if_pos v.start, catLoop_of_chain hb 0 v.chain] at this
    simp only at this
    split at this
    · injection this with this; rw [← this]
    · cases this
  have hdir : DImg.getDirectory m = (.ok (catList33 560 b cs 0), m) := by
    have hx : catLoop m.maxSectors m.bytes (m.maxSectors + 1) m.firstDir 0 = .ok (catList33 (sectors33 b) b cs 0) := by
      rw [h1, h2, h3]; exact catLoop_of_chain hb 0 v.chain
    rw [h1] at hx
    rw [hx] at hcl
    injection hcl with hcl
    unfold DImg.getDirectory
    rw [h1, hx]
    have e1 : (catList33 (sectors33 b) b cs 0).filter (fun d => d.isSane && !d.deleted) = m.files := by rw [hcl]; exact hfi.symm
    have e2 : (m.allSane && (catList33 (sectors33 b) b cs 0).all (·.isSane)) = m.allSane := by
      rw [hcl, List.all_eq_true.mpr hsane, Bool.and_true]
    simp only
    rw [e1, e2, hn, ← h1]
  -- the entry
  have hfind : findDirentIdx33 (catList33 560 b cs 0) name = .ok (pre.length, entryAt33 560 b pre.length p) := by
    have hget : ∀ i (q : Nat), (catSeen33 b cs)[i]? = some q → (catList33 560 b cs 0)[i]? = some (entryAt33 560 b i q) := by
      intro i q hq
      unfold catList33
      unfold catSeen33 at hq
      rw [List.getElem?_map, List.getElem?_zipIdx, hq]
      simp
    have hlen : (catList33 560 b cs 0).length = (catSeen33 b cs).length := by
      unfold catList33 catSeen33; rw [List.length_map, List.length_zipIdx]
    have hp0 := hget pre.length p (by rw [hp, List.getElem?_append_right (Nat.le_refl _)]; simp)
    have hlt : pre.length < (catList33 560 b cs 0).length := by rw [hlen, hp]; simp
    unfold findDirentIdx33
    have : (catList33 560 b cs 0).findIdx? (fun e => e.filename == name) = some pre.length := by
      rw [List.findIdx?_eq_some_iff_getElem]
      refine ⟨hlt, ?_, fun j hj => ?_⟩
      · have := (List.getElem?_eq_some_iff.mp hp0).2
        rw [this, parseName_info, hname]
        simp
      · have hj' : (catSeen33 b cs)[j]? = some pre[j] := by
          rw [hp, List.getElem?_append_left hj, List.getElem?_eq_getElem hj]
        have := (List.getElem?_eq_some_iff.mp (hget j _ hj')).2
        rw [this, parseName_info]
        have := hpre _ (List.getElem_mem hj)
        simpa using this
    rw [this]
    simp only
    rw [List.getD_eq_getElem?_getD, hp0]
    rfl
  have hinfo := entryAt33_info (n := 560) (k := pre.length) hl
  have hfirst : secOfTS (entryAt33 560 b pre.length p).track (entryAt33 560 b pre.length p).sector = (fileInfo33 b p).first :=
    congrArg FileInfo33.first hinfo
  have hnum : (entryAt33 560 b pre.length p).numSectors = (fileInfo33 b p).sectors := congrArg FileInfo33.sectors hinfo
  generalize hd : entryAt33 560 b pre.length p = d at *
  generalize hsecs : ts ++ dataSectors33 b (fileInfo33 b p).sectors ts = secs at *
  have hsv : d.sectorsInVtoc 560 b = .ok secs := by
    unfold DDirent.sectorsInVtoc
    rw [tsMap_of_chain (hfirst ▸ hts), hnum]
    simp only
    rw [hsecs]
  have hvl := length_sec33 hb (by omega : 272 < 560)
  obtain ⟨map', m1, m2, m3⟩ := freeSectors_ok secs (vtocMap33 (sec33 b 272))
    (fun n hn => by rw [length_vtocMap33]; have := hsec n hn; omega)
  obtain ⟨w1, b1, b2, b3⟩ := calcBitmap33 (m := m) (by rw [h1]; exact hb) map'
  have ho : VtocOnly b (splice b (256 * 272) (vtocStore33 (sec33 b 272) map')) := VtocOnly.store hb (.refl _) map'
  have hsA : sec33 (splice b (256 * 272) (vtocStore33 (sec33 b 272) map')) 272 = vtocStore33 (sec33 b 272) map' :=
    sec33_splice_same hb (by omega) (length_vtocStore33 hvl map')
  rw [h1] at b1
  generalize splice b (256 * 272) (vtocStore33 (sec33 b 272) map') = bA at *
  have hop := open33_vtoc hm v hv ho (vtocKept_store hb hsA)
  have hbody : DImg.deleteBody name m = (.error .noSpaceInDirectory, { m with bytes := bA }) := by
    unfold DImg.deleteBody
    rw [hdir]
    simp only
    rw [hfind]
    simp only
    rw [show d.sectorsInVtoc m.maxSectors m.bytes = .ok secs by rw [hmax, h1]; exact hsv]
    simp only
    have hgv : m.getVtocMap = .ok (vtocMap33 (sec33 b 272)) := by
      unfold DImg.getVtocMap getSec33
      rw [if_pos (by omega), h1]
    rw [hgv]
    simp only
    rw [m1]
    simp only
    rw [b1]
    simp only
    have hcat : DImg.calcCatSectors { m with bytes := bA } ((catList33 560 b cs 0).set pre.length d.markDeleted) = .error .noSpaceInDirectory := by
      rcases calcCat_crowded (m := { m with bytes := bA }) (cs := cs) (ds := (catList33 560 b cs 0).set pre.length d.markDeleted)
        (ho.size.trans hb)
        (by show CatChain33 m.maxSectors bA m.firstDir cs
            rw [h2, h3]
            exact v.chain.frame fun x hx => ho.others x (fun h => hv (h ▸ hx))) hne
        (by rw [List.length_set]; unfold catList33; rw [List.length_map, List.length_zipIdx]; exact hcr) with h | ⟨e, he, h⟩
      · exact h
      · exfalso
        have henc : ∀ x ∈ (catList33 560 b cs 0).set pre.length d.markDeleted, x.Encodable := by
          intro x hx
          rcases List.mem_or_eq_of_mem_set hx with hx | rfl
          · obtain ⟨y, _, rfl⟩ := List.mem_map.mp hx
            exact (encodable_parse _ _).1
          · obtain ⟨a1, a2, a3, a4⟩ := (encodable_parse pre.length (slice b p (p + 35))).1
            rw [← hd]
            exact ⟨a1, a2, a3, fun h => by cases h⟩
        obtain ⟨encs, e1, _⟩ := encodeAll33_ok _ henc
        rw [e1] at he
        cases he
    rw [hcat]
  refine ⟨bA, ?_, ho, hop, fun s => ?_⟩
  · exact transaction33_error (m1 := { m with bytes := bA }) (by show bA.length = m.bytes.length; rw [h1]; exact ho.size) hbody
      (getMetadata33_of_open hop rfl hmax hallS)
  · rw [isFree33_store (ho.size.trans hb) hvl hsA, m3, isFree33_iff hb]
    by_cases hms : s ∈ secs
    · rw [if_pos hms]
      have := hsec s hms
      simp only [hms, or_true, iff_true, and_true]
      exact this
    · rw [if_neg hms]
      refine ⟨fun h => .inl h.2, fun h => ?_⟩
      rcases h with h | h
      · exact ⟨((isFree33_iff hb s).mpr h).1, h⟩
      · exact absurd h hms

/-! ### a disk with a catalog of one sector -/

/-- the entries that are looked at, from the bytes of the catalog sector -/
theorem seenEntries33_eq (b : Bytes) (s : Nat) : seenEntries33 b s =
    ((List.range 7).takeWhile fun i => !(((sec33 b s).getD (11 + 35 * i) 0).toNat != 255 && ((sec33 b s).getD (13 + 35 * i) 0).toNat == 0)).map
      fun i => 256 * s + 11 + 35 * i := by
  unfold seenEntries33 entryPos33
  rw [List.takeWhile_map]
  congr 1
  have key : ∀ (l : List Nat) (P Q : Nat → Bool), (∀ i ∈ l, P i = Q i) → l.takeWhile P = l.takeWhile Q := by
    intro l P Q
    induction l with
    | nil => intro _; rfl
    | cons x l ih =>
      intro h
      rw [List.takeWhile_cons, List.takeWhile_cons, h x (by simp), ih fun i hi => h i (by simp [hi])]
  refine key _ _ _ fun i hi => ?_
  have hi := List.mem_range.mp hi
  simp only [Function.comp, lastEntry33, byteOf]
  rw [getD_sec33 (by omega), getD_sec33 (by omega), show 256 * s + 11 + 35 * i = 256 * s + (11 + 35 * i) by omega,
    show 256 * s + (11 + 35 * i) + 2 = 256 * s + (13 + 35 * i) by omega]

/-- catalog sector with the entry of a binary file `A` of two sectors, the list at track 1, sector 1 -/
def oneCat : Bytes := List.replicate 11 0 ++ ([1, 1, 4, 0xc1] ++ List.replicate 29 0xa0 ++ [2, 0]) ++ List.replicate 210 0

/-- its track/sector list: one data sector, track 1, sector 2 -/
def oneList : Bytes := List.replicate 12 0 ++ [1, 2] ++ List.replicate 242 0

/-- sectors of that disk -/
def oneSec (s : Nat) : Bytes :=
  if s = 272 then vtocBlank33 else if s = 287 then oneCat else if s = 17 then oneList else List.replicate 256 0

theorem oneSec_length (s : Nat) : (oneSec s).length = 256 := by
  unfold oneSec
  split
  · exact vtocBlank33_length
  split
  · decide +kernel
  split
  · decide +kernel
  · exact List.length_replicate

def oneDisk : Bytes := imgOf33 oneSec

theorem oneDisk_length : oneDisk.length = 143360 := imgOf33_length oneSec_length

theorem oneDisk_sec {s : Nat} (h : s < 560) : sec33 oneDisk s = oneSec s := sec33_flatMap oneSec_length h

attribute [local irreducible] oneDisk

theorem oneDisk_byte {s i : Nat} (hs : s < 560) (hi : i < 256) : secByte33 oneDisk s i = ((oneSec s).getD i 0).toNat := by
  unfold secByte33
  rw [← getD_sec33 hi, oneDisk_sec hs]

theorem oneDisk_pair {s i : Nat} (hs : s < 560) (hi : i < 255) : pairAt33 oneDisk s i = 16 * ((oneSec s).getD i 0).toNat + ((oneSec s).getD (i + 1) 0).toNat := by
  unfold pairAt33
  rw [oneDisk_byte hs (by omega), oneDisk_byte hs (by omega)]

theorem oneDisk_seen : catSeen33 oneDisk [287] = [73483] := by
  unfold catSeen33
  rw [List.flatMap_cons, List.flatMap_nil, List.append_nil, seenEntries33_eq, oneDisk_sec (by omega)]
  decide +kernel

theorem oneDisk_at {j : Nat} (h : j < 256 - 11) : byteOf oneDisk (73483 + j) = (oneCat.getD (11 + j) 0).toNat := by
  have := oneDisk_byte (s := 287) (i := 11 + j) (by omega) (by omega)
  unfold secByte33 at this
  unfold byteOf
  rw [show 73483 + j = 256 * 287 + (11 + j) by omega, this]
  rfl

theorem oneDisk_crowded : Crowded33 oneDisk [287] := by
  have h2 : pairAt33 oneDisk 272 1 = 287 := by rw [oneDisk_pair (by omega) (by omega)]; decide +kernel
  have h3 : sectors33 oneDisk = 560 := by
    unfold sectors33; rw [oneDisk_byte (by omega) (by omega), oneDisk_byte (by omega) (by omega)]; decide +kernel
  refine ⟨⟨oneDisk_length, ⟨?_, fun _ => ?_⟩, by rw [h2, h3]; omega, ?_, ?_⟩, by decide, ?_⟩
  · have h : oneDisk.take 4 = (oneSec 0).take 4 := by
      rw [← oneDisk_sec (by omega)]
      simp [sec33, slice, List.take_take]
    rw [h]
    decide +kernel
  · rw [oneDisk_byte (by omega) (by omega), oneDisk_byte (by omega) (by omega)]; decide +kernel
  · rw [h2, h3]
    refine .next (by omega) (by omega) (by omega) ?_
    rw [oneDisk_pair (by omega) (by omega)]
    exact .done
  · intro p hp
    have : p ∈ catSeen33 oneDisk [287] := hp
    rw [oneDisk_seen, List.mem_singleton] at this
    subst this
    right
    rw [show (73483 : Nat) = 73483 + 0 from rfl, oneDisk_at (by omega), oneDisk_at (by omega), oneDisk_at (by omega), oneDisk_at (by omega), h3]
    decide +kernel
  · rw [oneDisk_seen]; decide

theorem oneDisk_info : fileInfo33 oneDisk 73483 = ⟨[0x41], 4, false, 17, 2, 1⟩ := by
  have hs : slice oneDisk (73483 + 3) (73483 + 32) = slice oneCat 14 43 := by
    rw [← show oneSec 287 = oneCat from rfl, ← oneDisk_sec (by omega)]
    unfold sec33
    rw [slice_slice]
    congr 1
  unfold fileInfo33
  rw [hs, show byteOf oneDisk 73483 = byteOf oneDisk (73483 + 0) from rfl, oneDisk_at (by omega), oneDisk_at (by omega), oneDisk_at (by omega),
    oneDisk_at (by omega), oneDisk_at (by omega)]
  decide +kernel

theorem oneDisk_list : ListChain33 560 oneDisk 17 [17] := by
  refine .next (by omega) (by omega) ?_
  rw [oneDisk_pair (by omega) (by omega)]
  exact .done

theorem oneDisk_data : dataSectors33 oneDisk 2 [17] = [18] := by
  unfold dataSectors33
  rw [List.flatMap_cons, List.flatMap_nil, List.append_nil]
  show (listPairs33 oneDisk 17).take 1 = [18]
  unfold listPairs33
  show [pairAt33 oneDisk 17 (12 + 2 * 0)] = [18]
  rw [oneDisk_pair (by omega) (by omega)]
  decide +kernel

/-- **C93 as a promise is false** (a failing `delete_file` leaves the image in memory as it was): there is a disk with one file `A` whose
sectors, 17 and 18, are in use; the delete fails, `A` is still listed, and the sectors are marked as free. -/
theorem C93_refuted_intact : ∃ (b : Bytes) (m m' : DImg), DImg.open b = .ok m ∧ m.names = [[0x41]] ∧ ¬ IsFree33 b 17 ∧ ¬ IsFree33 b 18 ∧
    DImg.deleteFile [0x41] m = (.error .noSpaceInDirectory, m') ∧ m'.names = [[0x41]] ∧ IsFree33 m'.bytes 17 ∧ IsFree33 m'.bytes 18 := by
  obtain ⟨m, hm⟩ := C77_volume oneDisk_crowded.1
  have hn : sectors33 oneDisk = 560 := by
    unfold sectors33; rw [oneDisk_byte (by omega) (by omega), oneDisk_byte (by omega) (by omega)]; decide +kernel
  have hi := oneDisk_info
  have h255 : byteOf oneDisk 73483 ≠ 255 := by
    rw [show byteOf oneDisk 73483 = byteOf oneDisk (73483 + 0) from rfl, oneDisk_at (by omega)]
    decide +kernel
  obtain ⟨b', h1, h2, h3, h4⟩ := C93_delete_frees hm oneDisk_crowded hn (name := [0x41]) (pre := []) (post := []) (p := 73483)
    oneDisk_seen h255 (by rw [hi]) (fun q hq => by cases hq) (ts := [17]) (by rw [hi]; exact oneDisk_list)
    (by rw [hi, oneDisk_data]; decide)
  rw [hi] at h4
  have h4 : ∀ s, IsFree33 b' s ↔ IsFree33 oneDisk s ∨ s ∈ [17] ++ dataSectors33 oneDisk 2 [17] := h4
  rw [oneDisk_data] at h4
  have hfree : ∀ s, s = 17 ∨ s = 18 → ¬ IsFree33 oneDisk s := by
    intro s hs hf
    unfold IsFree33 at hf
    rw [oneDisk_sec (by omega), show oneSec 272 = vtocBlank33 from rfl, vtocBlank33_free s (by omega)] at hf
    have := hf.2
    simp only [decide_eq_true_eq] at this
    omega
  have hnames : m.names = [[0x41]] := by
    obtain ⟨cs', v', _, _, _, _, hx⟩ := C77_opens _ _ hm
    have hcs : cs' = [287] := oneDisk_crowded.1.chain.unique v'.chain
    subst hcs
    have hy := congrArg (List.map FileInfo33.name) hx
    rw [List.map_map] at hy
    have hz : fileEntries33 oneDisk [287] = [73483] := by
      unfold fileEntries33
      rw [show [287].flatMap (seenEntries33 oneDisk) = [73483] from oneDisk_seen]
      rw [List.filter_cons, if_pos (by simpa using h255)]
      rfl
    rw [hz] at hy
    unfold DImg.names
    refine Eq.trans ?_ (hy.trans (by rw [List.map_cons, List.map_nil, List.map_cons, List.map_nil, hi]))
    rfl
  refine ⟨oneDisk, m, _, hm, hnames, hfree 17 (.inl rfl), hfree 18 (.inr rfl), h1, hnames, ?_, ?_⟩
  · exact (h4 17).mpr (.inr (by decide))
  · exact (h4 18).mpr (.inr (by decide))

/-- the example disk: whatever is added or deleted, it stays as it is -/
example : ((Cmd.remove [[0x41]]).run (dos33Driver 'B') {} oneDisk).2 = oneDisk ∧
    ((Cmd.add [([0x42], [1, 2, 3])]).run (dos33Driver 'B') { force := true } oneDisk).2 = oneDisk :=
  ⟨C93_run oneDisk_crowded _ _ _ (by simp), C93_run oneDisk_crowded _ _ _ (by simp)⟩

/-- the blank disk is not crowded: deleting and adding work there (`C10`, `C12`) -/
example : ¬ Crowded33 blank33 catBlank33 := by
  rintro ⟨v, _, h⟩
  obtain ⟨m, hm⟩ := C77_volume v
  have h1 := mounted_blank33.1
  rw [mount33_bytes] at h1
  obtain ⟨cs, v', _, _, _, _, hx⟩ := C77_opens _ _ h1
  obtain ⟨_, _, _, ds, hcl, hfi, _⟩ := open33_ok h1
  have hcl : catLoop 560 blank33 561 (linkOf (sec33 blank33 272)) 0 = .ok ds := hcl
  rw [(template33_consistent blank33_template).catLoop] at hcl
  injection hcl with hcl
  have hn : sectors33 blank33 = 560 := by
    have := (C77_opens _ _ h1).choose_spec.2.2.2.1
    exact this.symm
  have := catLoop_of_chain v.size 0 v.chain
  rw [hn, ← linkOf_sec33, (template33_consistent blank33_template).catLoop] at this
  injection this with this
  have := congrArg List.length this
  unfold catList33 at this
  rw [List.length_map, List.length_zipIdx] at this
  unfold catSeen33 at h
  rw [← this] at h
  simp at h

end Atr
