import Verif.Spec.Dos33Names
import Verif.Props.Dos33Crowded
/-!
# C94: the catalog of a DOS 3.3 disk after a file has been added or deleted

`get_directory` stops in a catalog sector at an entry with flag byte 0 and goes on with the next sector.  `calc_vtoc`,
`Directory.calc_sectors` put the entries found one behind the other into as many catalog sectors as they need, seven in each, and
leave the catalog sectors behind those as they are.  What follows is stated for every image of 560 sectors that opens, with its
catalog sectors `cs`; nothing else is assumed of the files or of the bitmap.
-/
namespace Atr

/-- where entry number `t` of a catalog is, if all the entries of its sectors are counted -/
def slotPos33 (cs : List Nat) (t : Nat) : Nat := 256 * cs.getD (t / 7) 0 + 11 + 35 * (t % 7)

/-- the entry at `p` is marked as deleted (`none`) or is that of a file -/
def SlotIs33 (b : Bytes) (p : Nat) : Option FileInfo33 → Prop
  | none => byteOf b p = 255
  | some f => byteOf b p ≠ 255 ∧ fileInfo33 b p = f

/-- The catalog `cs` of `b'` consists of `slots`, then of zeros up to the end of a sector, then of the sectors of `b`. -/
structure Packed33 (b b' : Bytes) (cs : List Nat) (slots : List (Option FileInfo33)) : Prop where
  size : b'.length = 143360
  room : (slots.length + 6) / 7 < cs.length
  slot : ∀ (t : Nat) (x : Option FileInfo33), slots[t]? = some x → SlotIs33 b' (slotPos33 cs t) x
  zero : ∀ t, slots.length ≤ t → t < 7 * ((slots.length + 6) / 7) → slice b' (slotPos33 cs t) (slotPos33 cs t + 35) = List.replicate 35 0
  later : ∀ (j x : Nat), (slots.length + 6) / 7 ≤ j → cs[j]? = some x → sec33 b' x = sec33 b x
  link : ∀ x ∈ cs, pairAt33 b' x 1 = pairAt33 b x 1

theorem chain33_of_cat {b : Bytes} {s cs} (h : CatChain33 560 b s cs) : Chain33 b s cs := by
  induction h with
  | done => exact .nil
  | next h0 h1 h2 _ ih => exact .cons h0 h2 (by rw [linkOf_sec33]; exact ih)

/-! ### entries of a catalog sector -/

theorem getElem?_chunks {α : Type} (n : Nat) (hn : 0 < n) (l : List α) (j : Nat) (g : List α) (h : (chunks n l)[j]? = some g) (k : Nat) :
    g[k]? = if k < n then l[n * j + k]? else none := by
  have h1 : (chunks n (l.drop (n * j)))[0]? = some g := by rw [chunks_drop n hn, List.getElem?_drop]; exact h
  have hne : l.drop (n * j) ≠ [] := by intro he; rw [he, chunks_nil] at h1; cases h1
  rw [chunks_cons n hn _ hne] at h1
  simp only [List.getElem?_cons_zero, Option.some.injEq] at h1
  rw [← h1, List.getElem?_take]
  by_cases hk : k < n
  · rw [if_pos hk, if_pos hk, List.getElem?_drop]
  · rw [if_neg hk, if_neg hk]

theorem catEntries_slot {b : Bytes} {x k : Nat} (hb : b.length = 143360) (hx : x < 560) (hk : k < 7) :
    (catEntries (sec33 b x))[k]? = some (slice b (256 * x + 11 + 35 * k) (256 * x + 11 + 35 * k + 35)) := by
  have hl := length_sec33 hb hx
  unfold catEntries
  have hc : k < (chunks 35 ((sec33 b x).drop 11)).length := by
    rw [length_chunks 35 (by omega), List.length_drop, hl]; omega
  rw [List.getElem?_eq_getElem hc]
  congr 1
  refine List.ext_getElem? fun i => ?_
  rw [getElem?_chunks 35 (by omega) _ k _ (List.getElem?_eq_getElem hc) i, List.getElem?_drop, getElem?_slice]
  by_cases hi : i < 35
  · rw [if_pos hi, if_pos (by omega)]
    unfold sec33
    rw [getElem?_slice, if_pos (by omega)]
    congr 1; omega
  · rw [if_neg hi, if_neg (by omega)]

/-- the name in an encoded entry -/
theorem encode33_field {d : DDirent} {e : Bytes} (hs : d.filename.length ≤ 30) (h : d.encode = .ok e) (hd : d.deleted = false) :
    slice e 3 33 = dosName33 d.filename := by
  unfold DDirent.encode at h
  split at h
  · cases h
  · split at h
    · cases h
    · injection h with h
      rw [← h, hd]
      unfold dosName33
      generalize hx : d.filename.map (· ||| 0x80) ++ List.replicate (30 - d.filename.length) (0xa0 : UInt8) = x
      have hl : x.length = 30 := by rw [← hx, List.length_append, List.length_map, List.length_replicate]; omega
      show slice (_ :: _ :: _ :: (x ++ enc16 d.numSectors)) 3 33 = x
      unfold slice
      simp only [List.take_succ_cons, List.drop_succ_cons, List.drop_zero]
      exact List.take_left' hl

/-- what writing the catalog does -/
theorem catWritten {m : DImg} {cs : List Nat} {ds' : List DDirent} {cat : List WSector} (hb : m.bytes.length = 143360)
    (hmax : m.maxSectors = 560) (hch : CatChain33 560 m.bytes m.firstDir cs) (hcs : cs ≠ []) (hne : ds' ≠ [])
    (henc : ∀ d ∈ ds', d.Encodable) (hcat : m.calcCatSectors ds' = .ok cat) :
    Writable33 cat ∧ (∀ w ∈ cat, w.num ∈ cs) ∧ ∀ b2, b2.length = 143360 → (∀ x ∈ cs, sec33 b2 x = sec33 m.bytes x) →
      Packed33 m.bytes (writeAll33 b2 cat) cs (ds'.map fun d => if d.deleted then none else some (d.reread 0).info) ∧
      ∀ (t : Nat) (d : DDirent), ds'[t]? = some d → d.deleted = false →
        nameField33 (writeAll33 b2 cat) (slotPos33 cs t) = dosName33 d.filename := by
  obtain ⟨encs, e1, e2, e3, e4⟩ := encodeAll33_ok ds' henc
  have hnee : encs ≠ [] := by
    intro h; rw [h] at e2; exact hne (List.length_eq_zero_iff.mp e2.symm)
  have hws := calcSectors33 hnee e3
  unfold DImg.calcCatSectors at hcat
  rw [e1] at hcat
  simp only at hcat
  rw [hmax] at hcat
  generalize hw : calcSectors freshCatSec encs = ws at hws hcat
  have hch' := chain33_of_cat hch
  have hgl : (chunks 7 encs).length = (ds'.length + 6) / 7 := by rw [length_chunks 7 (by omega), e2]; omega
  have hwl : ws.length = (chunks 7 encs).length := by have := congrArg List.length hws; simpa using this
  have hpos : 0 < ds'.length := List.length_pos_iff.mpr hne
  have hroom : ws.length < cs.length := by
    rcases Nat.lt_or_ge ws.length cs.length with h | h
    · exact h
    · exfalso
      rw [numberCat_crowded hb ws hch (by
        intro h0
        rw [h0] at hch
        cases hch with
        | done => exact hcs rfl
        | next h' _ _ _ => exact h' rfl) h] at hcat
      cases hcat
  obtain ⟨cat', q1, q2, q3⟩ := numberCat_ok hb ws hch' hroom
  rw [q1] at hcat
  injection hcat with hcat
  subst hcat
  have hcl : cat'.length = ws.length := by
    have := congrArg List.length q2
    rw [List.length_map, List.length_take] at this
    omega
  have hlt : ∀ x ∈ cs, x < 560 := fun x hx => (hch'.lt x hx).2
  have hcat : ∀ (j : Nat) (w : WSector), cat'[j]? = some w → ∃ g x, (chunks 7 encs)[j]? = some g ∧ cs[j]? = some x ∧ w.num = x ∧
      w.data = splice (catData g) 1 (tsBytes (cs.getD (j + 1) 0)) := by
    intro j w hj
    have hjl : j < ws.length := by rw [← hcl]; exact (List.getElem?_eq_some_iff.mp hj).1
    obtain ⟨w', x, h1, h2, h3, h4⟩ := q3 j ws[j] (List.getElem?_eq_getElem hjl)
    rw [hj] at h1; injection h1 with h1; subst h1
    have hg : ((chunks 7 encs).map catData)[j]? = some ws[j].data := by
      rw [← hws, List.getElem?_map, List.getElem?_eq_getElem hjl]; rfl
    rw [List.getElem?_map] at hg
    obtain ⟨g, hg1, hg2⟩ := Option.map_eq_some_iff.mp hg
    refine ⟨g, x, hg1, h2, h3, ?_⟩
    rw [h4, hg2, hch'.link j x h2]
  have hgs : ∀ g ∈ chunks 7 encs, g.length ≤ 7 := fun g hg => (mem_chunks_length 7 (by omega) encs g hg).2
  have hg35 : ∀ g ∈ chunks 7 encs, ∀ x ∈ g, x.length = 35 := by
    intro g hg x hx
    refine e3 x ?_
    rw [← chunks_flatten 7 (by omega) encs]
    exact List.mem_flatten.mpr ⟨g, hg, hx⟩
  have hwr : Writable33 cat' := by
    intro w hw
    obtain ⟨j, hj⟩ := List.getElem?_of_mem hw
    obtain ⟨g, x, h1, h2, h3, h4⟩ := hcat j w hj
    have hgm := List.mem_of_getElem? h1
    have hl := length_catData (hg35 g hgm) (hgs g hgm)
    refine ⟨by rw [h3]; exact hlt x (List.mem_of_getElem? h2), ?_⟩
    rw [h4, length_splice _ _ _ (by rw [hl]; simp [tsBytes]), hl]
  have hin : ∀ w ∈ cat', w.num ∈ cs := by
    intro w hw
    obtain ⟨j, hj⟩ := List.getElem?_of_mem hw
    obtain ⟨g, x, h1, h2, h3, h4⟩ := hcat j w hj
    rw [h3]; exact List.mem_of_getElem? h2
  refine ⟨hwr, hin, ?_⟩
  intro b2 hb2 hsame
  have hnd : (cat'.map (·.num)).Nodup := by rw [q2]; exact hch'.nodup.sublist (List.take_sublist _ _)
  have hoth := sec33_writeAll_other cat' b2 hb2 hwr
  have hmem := sec33_writeAll_mem cat' b2 hb2 hwr hnd
  have hlen : (writeAll33 b2 cat').length = 143360 := length_writeAll33 _ _ hb2 hwr
  have hsec : ∀ (j : Nat) (g : List Bytes) (x : Nat), (chunks 7 encs)[j]? = some g → cs[j]? = some x →
      sec33 (writeAll33 b2 cat') x = splice (catData g) 1 (tsBytes (cs.getD (j + 1) 0)) := by
    intro j g x hg hx
    have hjl : j < cat'.length := by rw [hcl, hwl]; exact (List.getElem?_eq_some_iff.mp hg).1
    obtain ⟨g', x', h1, h2, h3, h4⟩ := hcat j cat'[j] (List.getElem?_eq_getElem hjl)
    rw [hg] at h1; injection h1 with h1; subst h1
    rw [hx] at h2; injection h2 with h2; subst h2
    rw [← h3, hmem _ (List.getElem_mem hjl), h4]
  have hrest : ∀ (j x : Nat), (chunks 7 encs).length ≤ j → cs[j]? = some x → sec33 (writeAll33 b2 cat') x = sec33 m.bytes x := by
    intro j x hj hx
    rw [hoth x (fun w hw he => ?_), hsame x (List.mem_of_getElem? hx)]
    obtain ⟨i, hi⟩ := List.getElem?_of_mem hw
    obtain ⟨g, x', h1, h2, h3, h4⟩ := hcat i w hi
    have hil := (List.getElem?_eq_some_iff.mp h1).1
    rw [← h3, he] at h2
    obtain ⟨a1, a2⟩ := List.getElem?_eq_some_iff.mp h2
    obtain ⟨b1, b2⟩ := List.getElem?_eq_some_iff.mp hx
    exact absurd (a2.trans b2.symm) (List.pairwise_iff_getElem.mp hch'.nodup i j a1 b1 (by omega))
  -- the bytes of one slot
  have hslot : ∀ t, t < 7 * (chunks 7 encs).length →
      slice (writeAll33 b2 cat') (slotPos33 cs t) (slotPos33 cs t + 35) = encs.getD t (List.replicate 35 0) := by
    intro t ht
    have hj : t / 7 < (chunks 7 encs).length := by omega
    have hjc : t / 7 < cs.length := by omega
    have hx : cs[t / 7]? = some (cs.getD (t / 7) 0) := by
      rw [List.getD_eq_getElem?_getD, List.getElem?_eq_getElem hjc]; rfl
    have hs := hsec (t / 7) _ _ (List.getElem?_eq_getElem hj) hx
    have hgm := List.getElem_mem hj
    have hxl : cs.getD (t / 7) 0 < 560 := hlt _ (List.mem_of_getElem? hx)
    have h1 := catEntries_slot hlen hxl (Nat.mod_lt t (by omega : 0 < 7))
    rw [hs, catEntries_catData (hg35 _ hgm) (hgs _ hgm)] at h1
    have hgk := getElem?_chunks 7 (by omega) encs (t / 7) _ (List.getElem?_eq_getElem hj) (t % 7)
    rw [if_pos (Nat.mod_lt t (by omega)), Nat.div_add_mod] at hgk
    unfold slotPos33
    rw [List.getD_eq_getElem?_getD (l := encs)]
    rcases Nat.lt_or_ge t encs.length with hte | hte
    · rw [List.getElem?_eq_getElem hte] at hgk ⊢
      have hkl := (List.getElem?_eq_some_iff.mp hgk).1
      rw [List.getElem?_append_left hkl, hgk] at h1
      exact (Option.some.inj h1).symm
    · rw [List.getElem?_eq_none hte] at hgk ⊢
      have hkl := List.getElem?_eq_none_iff.mp hgk
      rw [List.getElem?_append_right hkl, List.getElem?_replicate,
        if_pos (by have := hgs _ hgm; have := Nat.mod_lt t (show 7 > 0 by omega); omega)] at h1
      exact (Option.some.inj h1).symm
  refine ⟨⟨hlen, by rw [List.length_map]; omega, ?_, ?_, ?_, ?_⟩, ?_⟩
  · intro t x hx
    rw [List.getElem?_map] at hx
    obtain ⟨d, hd1, hd2⟩ := Option.map_eq_some_iff.mp hx
    have htl := (List.getElem?_eq_some_iff.mp hd1).1
    have hte : t < encs.length := by omega
    have hs := hslot t (by rw [hgl]; omega)
    rw [List.getD_eq_getElem?_getD, List.getElem?_eq_getElem hte] at hs
    have hde := henc d (List.mem_of_getElem? hd1)
    have hp := parse33_encode hde (e4 t _ d (List.getElem?_eq_getElem hte) hd1) 0
    have hea : entryAt33 560 (writeAll33 b2 cat') 0 (slotPos33 cs t) = d.reread 0 := by
      unfold entryAt33
      rw [hs]
      exact hp
    have hdel := entryAt33_deleted 560 (writeAll33 b2 cat') 0 (slotPos33 cs t)
    rw [hea] at hdel
    have hdd : (d.reread 0).deleted = d.deleted := rfl
    rw [hdd] at hdel
    subst hd2
    cases hdv : d.deleted with
    | true =>
      rw [hdv] at hdel
      show byteOf _ _ = 255
      exact of_decide_eq_true hdel.symm
    | false =>
      rw [hdv] at hdel
      have hn := of_decide_eq_false hdel.symm
      refine ⟨hn, ?_⟩
      rw [← entryAt33_info (n := 560) (k := 0) hn, hea]
  · intro t h1 h2
    rw [List.length_map] at h1 h2
    rw [hslot t (by rw [hgl]; exact h2), List.getD_eq_getElem?_getD, List.getElem?_eq_none (by omega)]
    rfl
  · intro j x hj hx
    rw [List.length_map] at hj
    exact hrest j x (by omega) hx
  · intro x hx
    rw [← linkOf_sec33, ← linkOf_sec33]
    obtain ⟨j, hj⟩ := List.getElem?_of_mem hx
    by_cases hjg : j < (chunks 7 encs).length
    · have hgm := List.getElem_mem hjg
      have hl := length_catData (hg35 _ hgm) (hgs _ hgm)
      rw [hsec j _ x (List.getElem?_eq_getElem hjg) hj,
        linkOf_setNext hl (by have := getD_lt_560 hlt (j + 1); omega), hch'.link j x hj]
    · rw [hrest j x (by omega) hj]
  · intro t d hd1 hdel
    have htl := (List.getElem?_eq_some_iff.mp hd1).1
    have hte : t < encs.length := by omega
    have hs := hslot t (by rw [hgl]; omega)
    rw [List.getD_eq_getElem?_getD, List.getElem?_eq_getElem hte] at hs
    have hf := encode33_field (henc d (List.mem_of_getElem? hd1)).short (e4 t _ d (List.getElem?_eq_getElem hte) hd1) hdel
    rw [show encs[t] = slice (writeAll33 b2 cat') (slotPos33 cs t) (slotPos33 cs t + 35) from hs.symm] at hf
    rw [← hf, slice_slice, Nat.min_eq_right (by omega)]
    rfl

/-! ### the operations -/

/-- what the entry at `p` becomes when the catalog is rewritten: the lock and blanks behind the name are dropped -/
def kept33 (b : Bytes) (p : Nat) : Option FileInfo33 :=
  if byteOf b p = 255 then none else some { fileInfo33 b p with locked := false, name := rstripWs (fileInfo33 b p).name }

theorem entryAt33_encodable (n : Nat) (b : Bytes) (k p : Nat) : (entryAt33 n b k p).Encodable ∧ (entryAt33 n b k p).filename.length ≤ 29 := by
  have hlen : (entryAt33 n b k p).filename.length ≤ 29 := by
    rw [parseName_info]
    unfold fileInfo33
    simp only
    refine Nat.le_trans (List.length_filter_le _ _) (Nat.le_trans (length_rstripWs _) ?_)
    rw [List.length_map, length_slice]
    omega
  refine ⟨⟨?_, by omega, ?_, ?_⟩, hlen⟩
  · intro c hc
    rw [parseName_info] at hc
    unfold fileInfo33 at hc
    simpa using (List.mem_filter.mp hc).2
  · show _ % 128 < 128
    exact Nat.mod_lt _ (by omega)
  · intro hd
    rw [entryAt33_deleted] at hd
    have hp := of_decide_eq_false hd
    show (if ((slice b p (p + 35)).getD 0 0 == 0xff) = true then _ else _) ≠ _
    have h0 : (slice b p (p + 35)).getD 0 0 = b.getD p 0 := by rw [slice_getD (by omega)]; rfl
    rw [h0]
    have hne : b.getD p 0 ≠ 0xff := fun h => hp (by unfold byteOf; rw [h]; rfl)
    rw [if_neg (by simpa using hne)]
    exact hne

theorem entryAt33_kept (b : Bytes) (k p : Nat) :
    (if (entryAt33 560 b k p).deleted then none else some ((entryAt33 560 b k p).reread 0).info) = kept33 b p := by
  unfold kept33
  rw [entryAt33_deleted]
  by_cases hp : byteOf b p = 255
  · rw [if_pos (by simpa using hp), if_pos hp]
  · rw [if_neg (by simpa using hp), if_neg hp]
    have hi := entryAt33_info (n := 560) (k := k) hp
    have hd : (entryAt33 560 b k p).deleted = false := by rw [entryAt33_deleted]; simpa using hp
    have hl := (entryAt33_encodable 560 b k p).2
    generalize entryAt33 560 b k p = d at hi hd hl
    rw [← hi]
    unfold DDirent.reread DDirent.info
    simp only [hd, Bool.false_eq_true, if_false]
    rw [List.take_of_length_le hl]
    congr 2
    have : d.numSectors = byteOf b (p + 33) + 256 * byteOf b (p + 34) := congrArg FileInfo33.sectors hi
    rw [this]
    have h1 : byteOf b (p + 33) < 256 := UInt8.toNat_lt _
    have h2 : byteOf b (p + 34) < 256 := UInt8.toNat_lt _
    omega

theorem getElem?_catList33 (b : Bytes) (cs : List Nat) (i : Nat) :
    (catList33 560 b cs 0)[i]? = (catSeen33 b cs)[i]?.map fun p => entryAt33 560 b i p := by
  unfold catList33 catSeen33
  rw [List.getElem?_map, List.getElem?_zipIdx]
  cases (cs.flatMap (seenEntries33 b))[i]? <;> simp

theorem mem_catList33 {b : Bytes} {cs : List Nat} {d : DDirent} (h : d ∈ catList33 560 b cs 0) : ∃ k p, d = entryAt33 560 b k p := by
  obtain ⟨i, hi⟩ := List.getElem?_of_mem h
  rw [getElem?_catList33] at hi
  obtain ⟨p, _, hp⟩ := Option.map_eq_some_iff.mp hi
  exact ⟨i, p, hp.symm⟩

theorem transaction33_success {body : Proc DImg Unit} {m m' : DImg} (h : DImg.transaction body m = (.ok (), m')) :
    ∃ m1, body m = (.ok (), m1) ∧ m'.bytes = m1.bytes := by
  unfold DImg.transaction at h
  simp only at h
  generalize hy : body m = y at h
  obtain ⟨r, m1⟩ := y
  cases r with
  | ok u => exact ⟨m1, rfl, getMetadata33_bytes h⟩
  | error e =>
    simp only at h
    split at h <;> cases h

theorem delete_named {b : Bytes} {cs : List Nat} {m m' : DImg} {name : Bytes} (hm : DImg.open b = .ok m) (v : Volume33 b cs) (hv : 272 ∉ cs)
    (hn : sectors33 b = 560) (h : DImg.deleteFile name m = (.ok (), m')) :
    ∃ i p, (catSeen33 b cs)[i]? = some p ∧ (fileInfo33 b p).name = name ∧
      (∀ (j q : Nat), j < i → (catSeen33 b cs)[j]? = some q → (fileInfo33 b q).name ≠ name) ∧
      Packed33 b m'.bytes cs (((catSeen33 b cs).map (kept33 b)).set i none) ∧
      ∀ (j q : Nat), j ≠ i → (catSeen33 b cs)[j]? = some q → byteOf b q ≠ 255 →
        nameField33 m'.bytes (slotPos33 cs j) = dosName33 (fileInfo33 b q).name := by
  obtain ⟨_, _, h1, h3, h2, _⟩ := C77_opens b m hm
  obtain ⟨m1, hb1, hb2⟩ := transaction33_success h
  rw [hb2]
  clear h hb2
  obtain ⟨ds, files, s, g1, g2, g3⟩ := getDirectory_seen v h1 h2 h3
  unfold DImg.deleteBody at hb1
  rw [g1] at hb1
  simp only at hb1
  have hb := v.size
  rw [hn] at g2
  cases hf : findDirentIdx33 ds name with
  | error e => rw [hf] at hb1; cases hb1
  | ok q =>
    obtain ⟨i, d⟩ := q
    rw [hf] at hb1
    simp only at hb1
    have hfi : ∃ p, (catSeen33 b cs)[i]? = some p ∧ (fileInfo33 b p).name = name ∧ d = entryAt33 560 b i p ∧ 
        ∀ (j q : Nat), j < i → (catSeen33 b cs)[j]? = some q → (fileInfo33 b q).name ≠ name := by
      unfold findDirentIdx33 at hf
      split at hf
      · rename_i i' hx
        injection hf with hf
        injection hf with hf1 hf2
        subst hf1
        obtain ⟨k1, k2, k3⟩ := List.findIdx?_eq_some_iff_getElem.mp hx
        have hi : (catSeen33 b cs)[i']? = some ((catSeen33 b cs)[i']'(by rw [← g3]; exact k1)) := List.getElem?_eq_getElem _
        generalize (catSeen33 b cs)[i']'(by rw [← g3]; exact k1) = p at hi
        have hd : ds[i']? = some (entryAt33 560 b i' p) := by rw [g2, getElem?_catList33, hi]; rfl
        refine ⟨p, hi, ?_, ?_, ?_⟩
        · rw [(List.getElem?_eq_some_iff.mp hd).2] at k2
          rw [← parseName_info (n := 560) (k := i')]
          simpa using k2
        · rw [← hf2, List.getD_eq_getElem?_getD, hd]; rfl
        · intro j q hj hq
          have hdj : ds[j]? = some (entryAt33 560 b j q) := by rw [g2, getElem?_catList33, hq]; rfl
          have := k3 j hj
          rw [(List.getElem?_eq_some_iff.mp hdj).2] at this
          rw [← parseName_info (n := 560) (k := j)]
          simpa using this
      · cases hf
    obtain ⟨p, f1, f2, f3, f4⟩ := hfi
    refine ⟨i, p, f1, f2, f4, ?_⟩
    cases hs : d.sectorsInVtoc m.maxSectors m.bytes with
    | error e => rw [hs] at hb1; cases hb1
    | ok secs =>
      rw [hs] at hb1
      simp only at hb1
      generalize ({ m with files := files, allSane := s } : DImg).getVtocMap = y at hb1
      cases y with
      | error e => cases hb1
      | ok map =>
        simp only at hb1
        generalize freeSectors secs map = y at hb1
        cases y with
        | error e => cases hb1
        | ok map' =>
          simp only at hb1
          obtain ⟨w, c1, c2, c3⟩ := calcBitmap33 (m := { m with files := files, allSane := s }) (by rw [h1]; exact hb) map'
          rw [c1] at hb1
          simp only at hb1
          have hvl := length_vtocStore33 (length_sec33 (show m.bytes.length = 143360 by rw [h1]; exact hb) (show 272 < 560 by omega)) map'
          simp only at c3
          have ho : VtocOnly b (splice m.bytes (256 * 272) (vtocStore33 (sec33 m.bytes 272) map')) := by
            rw [h1]; exact VtocOnly.store hb (.refl _) map'
          generalize hbA : splice m.bytes (256 * 272) (vtocStore33 (sec33 m.bytes 272) map') = bA at ho hb1
          have hAl : bA.length = 143360 := ho.size.trans hb
          have hkeep : ∀ x ∈ cs, sec33 bA x = sec33 b x := fun x hx => ho.others x (fun h => hv (h ▸ hx))
          cases hcat : ({ m with files := files, allSane := s, bytes := bA } : DImg).calcCatSectors (ds.set i d.markDeleted) with
          | error e => rw [hcat] at hb1; cases hb1
          | ok cat =>
            rw [hcat] at hb1
            simp only at hb1
            have hcsne : cs ≠ [] := by
              rintro rfl
              simp [catSeen33] at f1
            have hil : i < ds.length := by rw [g3]; exact (List.getElem?_eq_some_iff.mp f1).1
            obtain ⟨z1, z2, z3⟩ := catWritten (m := { m with files := files, allSane := s, bytes := bA }) hAl (h2.trans hn)
              (by show CatChain33 560 bA m.firstDir cs
                  rw [h3, ← hn]
                  exact v.chain.frame hkeep) hcsne
              (by intro hnil
                  have := congrArg List.length hnil
                  rw [List.length_set] at this
                  simp at this
                  subst this
                  simp at hil)
              (by intro x hx
                  have hall : ∀ y ∈ ds, y.Encodable := by
                    intro y hy
                    rw [g2] at hy
                    obtain ⟨k, q, rfl⟩ := mem_catList33 hy
                    exact (entryAt33_encodable _ _ _ _).1
                  rcases List.mem_or_eq_of_mem_set hx with hx | hx
                  · exact hall x hx
                  · have hde := (entryAt33_encodable 560 b i p).1
                    rw [← f3] at hde
                    rw [hx]
                    exact ⟨hde.ascii, hde.short, hde.type, fun h => by cases h⟩) hcat
            have hvw : Writable33 [w] := by
              intro w' hw'
              rw [List.mem_singleton.mp hw', c2, c3]
              exact ⟨by omega, hvl⟩
            have hl2 := length_writeAll33 [w] bA hAl hvw
            rw [writeSectors33_eq [w] { m with files := files, allSane := s, bytes := bA } hAl (h2.trans hn) hvw] at hb1
            simp only at hb1
            rw [writeSectors33_eq cat { m with files := files, allSane := s, bytes := writeAll33 bA [w] } hl2 (h2.trans hn) z1] at hb1
            have hm1 := (Prod.mk.inj hb1).2
            obtain ⟨hres, hraw⟩ := z3 (writeAll33 bA [w]) hl2 (fun x hx => sec33_writeAll_other [w] bA hAl hvw x (fun w' hw' he => by
              rw [List.mem_singleton.mp hw', c2] at he
              exact hv (he ▸ hx)))
            rw [← hm1]
            have hslots : (ds.set i d.markDeleted).map (fun d => if d.deleted then none else some (d.reread 0).info) =
                ((catSeen33 b cs).map (kept33 b)).set i none := by
              rw [List.map_set]
              have : (if d.markDeleted.deleted = true then none else some (DDirent.reread 0 d.markDeleted).info) = none := rfl
              rw [this]
              congr 1
              refine List.ext_getElem? fun j => ?_
              rw [List.getElem?_map, List.getElem?_map, g2, getElem?_catList33, Option.map_map]
              cases (catSeen33 b cs)[j]? with
              | none => rfl
              | some q => exact congrArg some (entryAt33_kept b j q)
            rw [hslots] at hres
            refine ⟨⟨hres.size, hres.room, hres.slot, hres.zero,
              fun j x hj hx => (hres.later j x hj hx).trans (hkeep x (List.mem_of_getElem? hx)),
              fun x hx => (hres.link x hx).trans (by rw [← linkOf_sec33, ← linkOf_sec33]; exact congrArg linkOf (hkeep x hx))⟩, ?_⟩
            intro j q hj hq hlive
            have hd := hraw j (entryAt33 560 b j q) (by
              rw [List.getElem?_set_ne (fun h => hj h.symm), g2, getElem?_catList33, hq]; rfl) (by rw [entryAt33_deleted]; simpa using hlive)
            rw [hd, parseName_info]

/-- **C94, deleting.** `i` is the number of the first entry looked at that has the name, even if it is marked as deleted. -/
theorem C94_delete {b : Bytes} {cs : List Nat} {m m' : DImg} {name : Bytes} (hm : DImg.open b = .ok m) (v : Volume33 b cs) (hv : 272 ∉ cs)
    (hn : sectors33 b = 560) (h : DImg.deleteFile name m = (.ok (), m')) :
    ∃ i p, (catSeen33 b cs)[i]? = some p ∧ (fileInfo33 b p).name = name ∧
      (∀ (j q : Nat), j < i → (catSeen33 b cs)[j]? = some q → (fileInfo33 b q).name ≠ name) ∧
      Packed33 b m'.bytes cs (((catSeen33 b cs).map (kept33 b)).set i none) := by
  obtain ⟨i, p, h1, h2, h3, h4, _⟩ := delete_named hm v hv hn h
  exact ⟨i, p, h1, h2, h3, h4⟩

theorem writeSectors_max33 : ∀ (ws : List WSector) {m m' : DImg} {r}, DImg.writeSectors ws m = (r, m') → m'.maxSectors = m.maxSectors := by
  intro ws
  induction ws with
  | nil => intro m m' r h; simp only [DImg.writeSectors] at h; injection h with _ h; subst h; rfl
  | cons w ws ih =>
    intro m m' r h
    simp only [DImg.writeSectors] at h
    split at h
    · injection h with _ h; subst h; rfl
    · split at h
      · injection h with _ h; subst h; rfl
      · exact (ih h :)

theorem encodeAll33_mem : ∀ (ds : List DDirent) (encs : List Bytes), encodeAll33 ds = .ok encs → ∀ d ∈ ds, ∃ e, d.encode = .ok e := by
  intro ds
  induction ds with
  | nil => intro _ _ d hd; cases hd
  | cons a ds ih =>
    intro encs h d hd
    simp only [encodeAll33] at h
    cases ha : a.encode with
    | error e => rw [ha] at h; cases h
    | ok x =>
      rw [ha] at h
      simp only at h
      cases hs : encodeAll33 ds with
      | error e => rw [hs] at h; cases h
      | ok xs =>
        rcases List.mem_cons.mp hd with rfl | hd
        · exact ⟨x, ha⟩
        · exact ih xs hs d hd

theorem calcCat_encodes {m : DImg} {ds : List DDirent} {cat} (h : m.calcCatSectors ds = .ok cat) : ∀ d ∈ ds, ∃ e, d.encode = .ok e := by
  unfold DImg.calcCatSectors at h
  cases he : encodeAll33 ds with
  | error e => rw [he] at h; cases h
  | ok encs => exact encodeAll33_mem ds encs he

/-- the catalog at the end of the body of `write_file`: `i` is the number of the first entry looked at that is marked as deleted, or the
number of entries -/
theorem dosName33_pad (name : Bytes) : dosName33 (padRight 30 (name.take 30)) = dosName33 (name.take 30) := by
  unfold dosName33 padRight
  have hl : (name.take 30).length ≤ 30 := by rw [List.length_take]; omega
  generalize name.take 30 = x at hl
  rw [List.map_append, List.map_replicate, List.append_assoc, show (32 : UInt8) ||| 0x80 = 0xa0 from rfl, List.replicate_append_replicate, List.length_append, List.length_replicate,
    show 30 - x.length + (30 - (x.length + (30 - x.length))) = 30 - x.length by omega]

theorem writeBody_named {b : Bytes} {cs : List Nat} {m m1 : DImg} {name data : Bytes} {ftype : Nat} (hm : DImg.open b = .ok m)
    (v : Volume33 b cs) (hv : 272 ∉ cs) (hn : sectors33 b = 560) (hcsne : cs ≠ []) (hfree : ∀ x ∈ cs, ¬ IsFree33 b x) (hft : ftype < 128)
    (hb1 : DImg.writeBody name ftype data m = (.ok (), m1)) :
    ∃ i f, i ≤ (catSeen33 b cs).length ∧ (∀ p, (catSeen33 b cs)[i]? = some p → byteOf b p = 255) ∧
      (∀ (j p : Nat), j < i → (catSeen33 b cs)[j]? = some p → byteOf b p ≠ 255) ∧
      f.name = norm33 name ∧ f.ftype = ftype ∧ f.locked = false ∧ IsFree33 b f.first ∧
      Packed33 b m1.bytes cs (((catSeen33 b cs).map (kept33 b)).take i ++ some f :: ((catSeen33 b cs).map (kept33 b)).drop (i + 1)) ∧
      f.track = f.first / 16 ∧ (∀ c ∈ name.take 30, c < 0x80) ∧ nameField33 m1.bytes (slotPos33 cs i) = dosName33 (name.take 30) ∧
      ∀ (j q : Nat), j ≠ i → (catSeen33 b cs)[j]? = some q → byteOf b q ≠ 255 →
        nameField33 m1.bytes (slotPos33 cs j) = dosName33 (fileInfo33 b q).name := by
  obtain ⟨_, _, h1, h3, h2, _⟩ := C77_opens b m hm
  obtain ⟨ds, files, s, g1, g2, g3⟩ := getDirectory_seen v h1 h2 h3
  rw [hn] at g2
  have hb := v.size
  have hmb : m.bytes.length = 143360 := by rw [h1]; exact hb
  obtain ⟨u1, u2, u3⟩ := getFreeDirent33_spec ds
  have hget : ∀ (j p : Nat), (catSeen33 b cs)[j]? = some p → ds[j]? = some (entryAt33 560 b j p) := by
    intro j p hp
    rw [g2, getElem?_catList33, hp]
    rfl
  unfold DImg.writeBody at hb1
  rw [g1] at hb1
  simp only at hb1
  cases hvm : ({ m with files := files, allSane := s } : DImg).getVtocMap with
  | error e => rw [hvm] at hb1; cases hb1
  | ok map =>
    rw [hvm] at hb1
    simp only at hb1
    have hfr : ∀ x, map[x]? = some true ↔ IsFree33 b x := by
      have := vtocMap_free (m := { m with files := files, allSane := s }) hmb hvm
      intro x
      rw [this x]
      show IsFree33 m.bytes x ↔ _
      rw [h1]
    cases hr1 : reserve (buildSectors33 data).length map with
    | error e => rw [hr1] at hb1; cases hb1
    | ok q1 =>
      obtain ⟨order, map1⟩ := q1
      rw [hr1] at hb1
      simp only at hb1
      obtain ⟨o1, o2, o3, o4, _, _⟩ := reserve_ok hr1
      obtain ⟨v1, hc1, hn1, hd1⟩ := calcBitmap33 (m := { m with files := files, allSane := s }) hmb map1
      rw [hc1] at hb1
      simp only at hb1
      have ho : VtocOnly b (splice m.bytes (256 * 272) (vtocStore33 (sec33 m.bytes 272) map1)) := by
        rw [h1]; exact VtocOnly.store hb (.refl _) map1
      generalize splice m.bytes (256 * 272) (vtocStore33 (sec33 m.bytes 272) map1) = bA at hb1 ho
      have hord : ∀ w ∈ linkSectors WSector.setNextPlain 0 (buildSectors33 data) order, IsFree33 b w.num := by
        intro w hw
        have := linkSectors_num_mem _ setNextPlain_num 0 _ _ (by rw [o4]) w hw
        rw [o1] at this
        exact (hfr _).mp (freeList_iff.mp (List.mem_of_mem_take this))
      generalize linkSectors WSector.setNextPlain 0 (buildSectors33 data) order = sl at hb1 hord
      generalize buildTsList m.tsPairs _ = y at hb1
      cases y with
      | error e => cases hb1
      | ok tl =>
        simp only at hb1
        cases hr2 : reserve tl.length map1 with
        | error e => rw [hr2] at hb1; cases hb1
        | ok q2 =>
          obtain ⟨tsOrder, map2⟩ := q2
          rw [hr2] at hb1
          simp only at hb1
          obtain ⟨p1, p2, p3, p4, _, _⟩ := reserve_ok hr2
          have hAl : bA.length = 143360 := ho.size.trans hb
          obtain ⟨v2, hc2, hn2, hd2⟩ := calcBitmap33 (m := { m with files := files, allSane := s, bytes := bA }) hAl map2
          rw [hc2] at hb1
          simp only at hb1
          have ho2 : VtocOnly b (splice bA (256 * 272) (vtocStore33 (sec33 bA 272) map2)) := VtocOnly.store hb ho map2
          generalize splice bA (256 * 272) (vtocStore33 (sec33 bA 272) map2) = bB at hb1 ho2
          have hBl : bB.length = 143360 := ho2.size.trans hb
          have hkeep : ∀ x ∈ cs, sec33 bB x = sec33 b x := fun x hx => ho2.others x (fun h => hv (h ▸ hx))
          have hts : ∀ w ∈ linkSectors WSector.setNext33 0 tl tsOrder, IsFree33 b w.num := by
            intro w hw
            have := linkSectors_num_mem _ setNext33_num 0 _ _ (by rw [p4]) w hw
            rw [p1, o2] at this
            exact (hfr _).mp (freeList_iff.mp (List.mem_of_mem_drop (List.mem_of_mem_take this)))
          generalize linkSectors WSector.setNext33 0 tl tsOrder = tw at hb1 hts
          cases tw with
          | nil => cases hb1
          | cons t0 ts =>
            simp only at hb1
            have ht0 : IsFree33 b t0.num := hts t0 (by simp)
            have ht800 : t0.num < 800 := ht0.1
            generalize hsec : (sl ++ t0 :: ts).length = nsec at hb1
            generalize hdd : ({ DDirent.setValues name ftype with
                    track := UInt8.ofNat (t0.num / 16)
                    sector := UInt8.ofNat (t0.num % 16)
                    numSectors := nsec } : DDirent) = d at hb1
            cases hcat : ({ m with files := files, allSane := s, bytes := bB } : DImg).calcCatSectors (setDirent33 ds (getFreeDirent33 ds) d) with
            | error e => rw [hcat] at hb1; cases hb1
            | ok cat =>
              rw [hcat] at hb1
              simp only at hb1
              have hdmem : d ∈ setDirent33 ds (getFreeDirent33 ds) d := by
                have := getElem?_setDirent33 u1 d (getFreeDirent33 ds)
                rw [if_pos rfl] at this
                exact List.mem_of_getElem? this
              have hdel : d.deleted = false := by rw [← hdd]; rfl
              have hdname : d.filename = padRight 30 (name.take 30) := by rw [← hdd]; rfl
              have hdtrack : d.track = UInt8.ofNat (t0.num / 16) := by rw [← hdd]
              have hdsec : d.sector = UInt8.ofNat (t0.num % 16) := by rw [← hdd]
              have hdtype : d.ftype = ftype := by rw [← hdd]; rfl
              have hdenc : d.Encodable := by
                obtain ⟨e, he⟩ := calcCat_encodes hcat d hdmem
                unfold DDirent.encode at he
                split at he
                · cases he
                · rename_i ha
                  split at he
                  · cases he
                  · rename_i hs30
                    refine ⟨by simpa using ha, by omega, by rw [hdtype]; exact hft, fun _ => ?_⟩
                    rw [hdtrack]
                    intro hff
                    have := congrArg UInt8.toNat hff
                    rw [toNat_ofNat] at this
                    have h255 : (0xff : UInt8).toNat = 255 := rfl
                    rw [h255] at this
                    omega
              have hchain : CatChain33 560 bB m.firstDir cs := by
                rw [h3, ← hn]
                exact v.chain.frame hkeep
              obtain ⟨z1, z2, z3⟩ := catWritten (m := { m with files := files, allSane := s, bytes := bB }) hBl (h2.trans hn) hchain hcsne
                (by intro hnil; rw [hnil] at hdmem; cases hdmem)
                (by intro x hx
                    obtain ⟨j, hj⟩ := List.getElem?_of_mem hx
                    rw [getElem?_setDirent33 u1] at hj
                    by_cases hjk : j = getFreeDirent33 ds
                    · rw [if_pos hjk] at hj
                      injection hj with hj
                      rw [← hj]; exact hdenc
                    · rw [if_neg hjk] at hj
                      have hy := List.mem_of_getElem? hj
                      rw [g2] at hy
                      obtain ⟨k, q, rfl⟩ := mem_catList33 hy
                      exact (entryAt33_encodable _ _ _ _).1) hcat
              generalize hw1 : DImg.writeSectors (sl ++ t0 :: ts) { m with files := files, allSane := s, bytes := bB } = y at hb1
              obtain ⟨r1, mA⟩ := y
              cases r1 with
              | error e => cases hb1
              | ok _ =>
                simp only at hb1
                generalize hw2 : DImg.writeSectors [v1, v2] mA = y at hb1
                obtain ⟨r2, mB⟩ := y
                cases r2 with
                | error e => cases hb1
                | ok _ =>
                  simp only at hb1
                  have k1 := writeSectors_keeps33 (P := fun x => x ∈ cs) (sl ++ t0 :: ts) (fun w hw hp => by
                    rcases List.mem_append.mp hw with hw | hw
                    · exact hfree _ hp (hord w hw)
                    · exact hfree _ hp (hts w hw)) hw1
                  have k2 := writeSectors_keeps33 (P := fun x => x ∈ cs) [v1, v2] (fun w hw hp => by
                    rcases List.mem_cons.mp hw with rfl | hw
                    · rw [hn1] at hp; exact hv hp
                    · rw [List.mem_singleton.mp hw, hn2] at hp; exact hv hp) hw2
                  have k := k1.trans k2
                  have hmaxB : mB.maxSectors = 560 := by
                    have e1 := writeSectors_max33 _ hw1
                    have e2 := writeSectors_max33 _ hw2
                    rw [e2, e1]
                    exact h2.trans hn
                  have hlB : mB.bytes.length = 143360 := k.len.trans hBl
                  rw [writeSectors33_eq cat mB hlB hmaxB z1] at hb1
                  have hm1 := (Prod.mk.inj hb1).2
                  obtain ⟨hres, hraw⟩ := z3 mB.bytes hlB k.secs
                  rw [← hm1]
                  refine ⟨getFreeDirent33 ds, (d.reread 0).info, by rw [← g3]; exact u1, ?_, ?_, ?_, ?_, ?_, ?_, ?_, ?_, ?_, ?_, ?_⟩
                  · intro p hp
                    have := u2 (entryAt33 560 b (getFreeDirent33 ds) p) (hget _ p hp)
                    rw [entryAt33_deleted] at this
                    exact of_decide_eq_true this
                  · intro j p hj hp
                    have := u3 j (entryAt33 560 b j p) hj (hget j p hp)
                    rw [entryAt33_deleted] at this
                    exact of_decide_eq_false this
                  · show rstripWs (d.filename.take 29) = _
                    rw [hdname]; exact rstripWs_pad33 name
                  · show (if d.deleted = true then 127 else d.ftype) = _
                    rw [hdel, hdtype]; rfl
                  · exact hdel
                  · show IsFree33 b (secOfTS d.track d.sector)
                    rw [hdtrack, hdsec, secOfTS_ofNat (by omega)]
                    exact ht0
                  · have hslots : (setDirent33 ds (getFreeDirent33 ds) d).map (fun d => if d.deleted then none else some (d.reread 0).info) =
                        ((catSeen33 b cs).map (kept33 b)).take (getFreeDirent33 ds) ++
                          some (d.reread 0).info :: ((catSeen33 b cs).map (kept33 b)).drop (getFreeDirent33 ds + 1) := by
                      refine List.ext_getElem? fun j => ?_
                      have hml : ((catSeen33 b cs).map (kept33 b)).length = ds.length := by rw [List.length_map, g3]
                      generalize hk : getFreeDirent33 ds = k at u1
                      have htl : (((catSeen33 b cs).map (kept33 b)).take k).length = k := by rw [List.length_take, hml]; omega
                      rw [List.getElem?_map, getElem?_setDirent33 u1]
                      by_cases hjk : j = k
                      · subst hjk
                        rw [if_pos rfl, List.getElem?_append_right (by omega), htl, Nat.sub_self]
                        show some (if d.deleted = true then none else some (DDirent.reread 0 d).info) = _
                        rw [hdel]; rfl
                      · rw [if_neg hjk, g2, getElem?_catList33, Option.map_map]
                        have hr : (((catSeen33 b cs).map (kept33 b)).take k ++ some (d.reread 0).info :: ((catSeen33 b cs).map (kept33 b)).drop (k + 1))[j]? =
                            (catSeen33 b cs)[j]?.map (kept33 b) := by
                          rcases Nat.lt_or_ge j k with hlt | hge
                          · rw [List.getElem?_append_left (by omega), List.getElem?_take, if_pos hlt, List.getElem?_map]
                          · rw [List.getElem?_append_right (by omega), htl, show j - k = (j - k - 1) + 1 by omega, List.getElem?_cons_succ,
                              List.getElem?_drop, List.getElem?_map, show k + 1 + (j - k - 1) = j by omega]
                        rw [hr]
                        cases (catSeen33 b cs)[j]? with
                        | none => rfl
                        | some q => exact congrArg some (entryAt33_kept b j q)
                    rw [hslots] at hres
                    exact ⟨hres.size, hres.room, hres.slot, hres.zero,
                      fun j x hj hx => (hres.later j x hj hx).trans (hkeep x (List.mem_of_getElem? hx)),
                      fun x hx => (hres.link x hx).trans (by rw [← linkOf_sec33, ← linkOf_sec33]; exact congrArg linkOf (hkeep x hx))⟩
                  · show d.track.toNat = secOfTS d.track d.sector / 16
                    rw [hdtrack, hdsec, secOfTS_ofNat (by omega), toNat_ofNat, Nat.mod_eq_of_lt (by omega)]
                  · intro c hc
                    refine hdenc.ascii c ?_
                    rw [hdname]
                    exact List.mem_append_left _ hc
                  · rw [hraw (getFreeDirent33 ds) d (by rw [getElem?_setDirent33 u1, if_pos rfl]) hdel, hdname]
                    exact dosName33_pad name
                  · intro j q hj hq hlive
                    rw [hraw j (entryAt33 560 b j q) (by rw [getElem?_setDirent33 u1, if_neg hj]; exact hget j q hq)
                      (by rw [entryAt33_deleted]; simpa using hlive), parseName_info]

theorem writeBody_packed {b : Bytes} {cs : List Nat} {m m1 : DImg} {name data : Bytes} {ftype : Nat} (hm : DImg.open b = .ok m)
    (v : Volume33 b cs) (hv : 272 ∉ cs) (hn : sectors33 b = 560) (hcsne : cs ≠ []) (hfree : ∀ x ∈ cs, ¬ IsFree33 b x) (hft : ftype < 128)
    (hb1 : DImg.writeBody name ftype data m = (.ok (), m1)) :
    ∃ i f, i ≤ (catSeen33 b cs).length ∧ (∀ p, (catSeen33 b cs)[i]? = some p → byteOf b p = 255) ∧
      (∀ (j p : Nat), j < i → (catSeen33 b cs)[j]? = some p → byteOf b p ≠ 255) ∧
      f.name = norm33 name ∧ f.ftype = ftype ∧ f.locked = false ∧ IsFree33 b f.first ∧
      Packed33 b m1.bytes cs (((catSeen33 b cs).map (kept33 b)).take i ++ some f :: ((catSeen33 b cs).map (kept33 b)).drop (i + 1)) := by
  obtain ⟨i, f, h1, h2, h3, h4, h5, h6, h7, h8, _⟩ := writeBody_named hm v hv hn hcsne hfree hft hb1
  exact ⟨i, f, h1, h2, h3, h4, h5, h6, h7, h8⟩

/-- **C94, adding.** `i` is the number of the first entry looked at that is marked as deleted, or the number of entries.  (No
catalog sector is marked as free.) -/
theorem C94_write {b : Bytes} {cs : List Nat} {m m' : DImg} {name data : Bytes} {ftype : Nat} (hm : DImg.open b = .ok m)
    (v : Volume33 b cs) (hv : 272 ∉ cs) (hn : sectors33 b = 560) (hcsne : cs ≠ []) (hfree : ∀ x ∈ cs, ¬ IsFree33 b x) (hft : ftype < 128)
    (h : DImg.writeFile name ftype data m = (.ok (), m')) :
    ∃ i f, i ≤ (catSeen33 b cs).length ∧ (∀ p, (catSeen33 b cs)[i]? = some p → byteOf b p = 255) ∧
      (∀ (j p : Nat), j < i → (catSeen33 b cs)[j]? = some p → byteOf b p ≠ 255) ∧
      f.name = norm33 name ∧ f.ftype = ftype ∧ f.locked = false ∧ IsFree33 b f.first ∧
      Packed33 b m'.bytes cs (((catSeen33 b cs).map (kept33 b)).take i ++ some f :: ((catSeen33 b cs).map (kept33 b)).drop (i + 1)) := by
  obtain ⟨m1, hb1, hb2⟩ := transaction33_success h
  rw [hb2]
  exact writeBody_packed hm v hv hn hcsne hfree hft hb1

/-! ### the listing afterwards -/

theorem takeWhile_range {P : Nat → Bool} {n : Nat} : ∀ k m, (∀ i, i < k → P (m + i) = true) → k ≤ n → (k < n → P (m + k) = false) →
    ((List.range' m n).takeWhile P) = List.range' m k := by
  induction n with
  | zero => intro k m _ h _; have : k = 0 := by omega
            subst this; rfl
  | succ n ih =>
    intro k m h1 h2 h3
    rw [List.range'_succ, List.takeWhile_cons]
    cases k with
    | zero => rw [if_neg (by simpa using h3 (by omega))]; rfl
    | succ k =>
      rw [if_pos (show P m = true from h1 0 (by omega)), List.range'_succ, ih k (m + 1) (fun i hi => by
        have := h1 (i + 1) (by omega)
        rwa [show m + 1 + i = m + (i + 1) by omega]) (by omega) (fun hk => by
        have := h3 (by omega)
        rwa [show m + 1 + k = m + (k + 1) by omega])]

theorem seen_sector {b : Bytes} {c k : Nat} (hk : k ≤ 7) (h1 : ∀ i, i < k → lastEntry33 b (256 * c + 11 + 35 * i) = false)
    (h2 : k < 7 → lastEntry33 b (256 * c + 11 + 35 * k) = true) :
    seenEntries33 b c = (List.range k).map fun i => 256 * c + 11 + 35 * i := by
  unfold seenEntries33 entryPos33
  rw [List.takeWhile_map, List.range_eq_range', List.range_eq_range']
  congr 1
  refine takeWhile_range k 0 (fun i hi => ?_) hk (fun hk7 => ?_)
  · show (!lastEntry33 b (256 * c + 11 + 35 * (0 + i))) = true
    rw [Nat.zero_add, h1 i hi]; rfl
  · show (!lastEntry33 b (256 * c + 11 + 35 * (0 + k))) = false
    rw [Nat.zero_add, h2 hk7]; rfl

theorem slotPos33_cons (c : Nat) (cs : List Nat) (t : Nat) : slotPos33 (c :: cs) (7 + t) = slotPos33 cs t := by
  unfold slotPos33
  rw [show (7 + t) / 7 = t / 7 + 1 by omega, show (7 + t) % 7 = t % 7 by omega]
  rfl

theorem slotPos33_head (c : Nat) (cs : List Nat) {t : Nat} (h : t < 7) : slotPos33 (c :: cs) t = 256 * c + 11 + 35 * t := by
  unfold slotPos33
  rw [show t / 7 = 0 by omega, show t % 7 = t by omega]
  rfl

theorem seen_packed {b : Bytes} : ∀ (cs : List Nat) (n : Nat), (n + 6) / 7 ≤ cs.length →
    (∀ t, t < n → lastEntry33 b (slotPos33 cs t) = false) →
    (∀ t, n ≤ t → t < 7 * ((n + 6) / 7) → lastEntry33 b (slotPos33 cs t) = true) →
    catSeen33 b cs = (List.range n).map (slotPos33 cs) ++ (cs.drop ((n + 6) / 7)).flatMap (seenEntries33 b) := by
  intro cs
  induction cs with
  | nil =>
    intro n hn _ _
    have : n = 0 := by simp at hn; omega
    subst this; rfl
  | cons c cs ih =>
    intro n hn h1 h2
    rcases Nat.eq_zero_or_pos n with rfl | hpos
    · rfl
    have hseen : seenEntries33 b c = (List.range (min n 7)).map fun i => 256 * c + 11 + 35 * i := by
      refine seen_sector (by omega) (fun i hi => ?_) (fun hlt => ?_)
      · rw [← slotPos33_head c cs (by omega)]; exact h1 i (by omega)
      · rw [← slotPos33_head c cs hlt]; exact h2 _ (by omega) (by omega)
    have hm : (List.range (min n 7)).map (fun i => 256 * c + 11 + 35 * i) = (List.range (min n 7)).map (slotPos33 (c :: cs)) :=
      List.map_congr_left fun i hi => (slotPos33_head c cs (by have := List.mem_range.mp hi; omega)).symm
    have hl : (n + 6) / 7 = (n - 7 + 6) / 7 + 1 := by omega
    have hih := ih (n - 7) (by simp at hn; omega) (fun t ht => by rw [← slotPos33_cons c cs t]; exact h1 _ (by omega))
      (fun t h3 h4 => by
        rw [← slotPos33_cons c cs t]
        exact h2 _ (by omega) (by omega))
    unfold catSeen33 at hih ⊢
    rw [List.flatMap_cons, hseen, hm, hih, hl, List.drop_succ_cons, ← List.append_assoc]
    congr 1
    rw [show n = min n 7 + (n - 7) by omega, List.range_add, List.map_append, List.map_map]
    rcases Nat.lt_or_ge 7 n with h7 | h7
    · rw [show min (min n 7 + (n - 7)) 7 = 7 by omega, show min n 7 + (n - 7) - 7 = n - 7 by omega, show min n 7 = 7 by omega]
      congr 1
      exact List.map_congr_left fun t _ => (slotPos33_cons c cs t).symm
    · rw [show n - 7 = 0 by omega]
      simp only [Nat.add_zero, List.range_zero, List.map_nil, List.append_nil]
      rw [show min n 7 - 7 = 0 by omega, show min (min n 7) 7 = min n 7 by omega]
      simp

theorem flatMap_agree {α β : Type} {l : List α} {f g : α → List β} (h : ∀ x ∈ l, f x = g x) : l.flatMap f = l.flatMap g := by
  induction l with
  | nil => rfl
  | cons a l ih => rw [List.flatMap_cons, List.flatMap_cons, h a (by simp), ih fun x hx => h x (by simp [hx])]

theorem takeWhile_agree {α : Type} {l : List α} {p q : α → Bool} (h : ∀ x ∈ l, p x = q x) : l.takeWhile p = l.takeWhile q := by
  induction l with
  | nil => rfl
  | cons a l ih => rw [List.takeWhile_cons, List.takeWhile_cons, h a (by simp), ih fun x hx => h x (by simp [hx])]

/-- **C94, the listing.** If no entry written has type 0 (text), the entries looked at afterwards are those written, one behind the
other, and then once more all those of the catalog sectors that have not been rewritten. -/
theorem C94_listing {b b' : Bytes} {cs : List Nat} {slots : List (Option FileInfo33)} (h : Packed33 b b' cs slots)
    (hcs : ∀ x ∈ cs, x < 560) (ht : ∀ f, some f ∈ slots → f.ftype ≠ 0 ∨ f.locked = true) :
    catSeen33 b' cs = (List.range slots.length).map (slotPos33 cs) ++ (cs.drop ((slots.length + 6) / 7)).flatMap (seenEntries33 b) := by
  rw [seen_packed cs slots.length (Nat.le_of_lt h.room)]
  · congr 1
    refine flatMap_agree fun x hx => ?_
    obtain ⟨j, hj⟩ := List.getElem?_of_mem hx
    rw [List.getElem?_drop] at hj
    have hs := h.later _ x (by omega) hj
    have hx560 := hcs x (List.mem_of_getElem? hj)
    unfold seenEntries33
    have hbyte : ∀ k, k < 256 → byteOf b' (256 * x + k) = byteOf b (256 * x + k) := by
      intro k hk
      have : ((sec33 b' x).getD k 0).toNat = ((sec33 b x).getD k 0).toNat := by rw [hs]
      rw [getD_sec33 hk, getD_sec33 hk] at this
      exact this
    refine takeWhile_agree fun p hp => ?_
    unfold entryPos33 at hp
    obtain ⟨i, hi, rfl⟩ := List.mem_map.mp hp
    have hi7 := List.mem_range.mp hi
    unfold lastEntry33
    have e1 := hbyte (11 + 35 * i) (by omega)
    have e2 := hbyte (11 + 35 * i + 2) (by omega)
    rw [show 256 * x + 11 + 35 * i = 256 * x + (11 + 35 * i) by omega, Nat.add_assoc, e1, e2]
  · intro t htl
    have hs := h.slot t _ (List.getElem?_eq_getElem htl)
    unfold lastEntry33
    cases hx : slots[t] with
    | none =>
      rw [hx] at hs
      have : byteOf b' (slotPos33 cs t) = 255 := hs
      rw [this]; rfl
    | some f =>
      rw [hx] at hs
      obtain ⟨h1, h2⟩ := hs
      have hne := ht f (by rw [← hx]; exact List.getElem_mem htl)
      have hf2 : byteOf b' (slotPos33 cs t + 2) ≠ 0 := by
        intro h0
        rw [← h2] at hne
        unfold fileInfo33 at hne
        simp only at hne
        rw [h0] at hne
        simp at hne
      simp [hf2]
  · intro t h1 h2
    have hz := h.zero t h1 h2
    have hg : ∀ k, k < 35 → byteOf b' (slotPos33 cs t + k) = 0 := by
      intro k hk
      have : ((slice b' (slotPos33 cs t) (slotPos33 cs t + 35)).getD k 0).toNat = ((List.replicate 35 (0 : UInt8)).getD k 0).toNat := by rw [hz]
      rw [slice_getD (by omega), List.getD_eq_getElem?_getD (l := List.replicate 35 0), List.getElem?_replicate, if_pos hk] at this
      exact this
    unfold lastEntry33
    have := hg 0 (by omega)
    rw [Nat.add_zero] at this
    rw [this, hg 2 (by omega)]
    rfl

theorem takeWhile_stops {f : Nat → Nat} {P : Nat → Bool} (hinj : ∀ i j, f i = f j → i = j) : ∀ (n m t u : Nat), m ≤ t → t ≤ u →
    P (f t) = false → f u ∉ ((List.range' m n).map f).takeWhile P := by
  intro n
  induction n with
  | zero => intro m t u _ _ _ h; simp at h
  | succ n ih =>
    intro m t u h1 h2 h3 h
    rw [List.range'_succ, List.map_cons, List.takeWhile_cons] at h
    by_cases hm : m = t
    · subst hm; rw [h3] at h; simp at h
    · by_cases hp : P (f m) = true
      · rw [if_pos hp] at h
        rcases List.mem_cons.mp h with h | h
        · have := hinj _ _ h; omega
        · exact ih (m + 1) t u (by omega) h2 h3 h
      · rw [if_neg hp] at h; simp at h

/-- **C94, text files.** An entry written for a text file (type 0) ends its catalog sector: neither it nor what has been written behind
it in that sector is looked at. (`kept33` has dropped the lock bit, with which the entry was still seen before.) -/
theorem C94_text {b b' : Bytes} {cs : List Nat} {slots : List (Option FileInfo33)} (h : Packed33 b b' cs slots) {t : Nat} {f : FileInfo33}
    (ht : slots[t]? = some (some f)) (h0 : f.ftype = 0) (hl : f.locked = false) {u : Nat} (hu : t ≤ u) (hs : u / 7 = t / 7) :
    slotPos33 cs u ∉ catSeen33 b' cs := by
  intro hm
  unfold catSeen33 at hm
  obtain ⟨c, _, hm⟩ := List.mem_flatMap.mp hm
  unfold seenEntries33 entryPos33 at hm
  have hpos := (List.takeWhile_sublist _).subset hm
  obtain ⟨i, hi, he⟩ := List.mem_map.mp hpos
  have hi7 := List.mem_range.mp hi
  have hc : c = cs.getD (u / 7) 0 := by
    unfold slotPos33 at he
    have := Nat.mod_lt u (show 7 > 0 by omega)
    omega
  rw [List.range_eq_range', show slotPos33 cs u = (fun i => 256 * c + 11 + 35 * i) (u % 7) by unfold slotPos33; rw [hc]] at hm
  refine takeWhile_stops (f := fun i => 256 * c + 11 + 35 * i) (fun i j hij => by omega) 7 0 (t % 7) (u % 7) (by omega)
    (by omega) ?_ hm
  obtain ⟨g1, g2⟩ := h.slot t _ ht
  have hp : slotPos33 cs t = 256 * c + 11 + 35 * (t % 7) := by unfold slotPos33; rw [hc, hs]
  rw [hp] at g1 g2
  have e1 : byteOf b' (256 * c + 11 + 35 * (t % 7) + 2) % 128 = 0 := by rw [← h0, ← g2]; rfl
  have e2 : decide (128 ≤ byteOf b' (256 * c + 11 + 35 * (t % 7) + 2)) = false := by rw [← hl, ← g2]; rfl
  have e3 := of_decide_eq_false e2
  unfold lastEntry33
  have e4 : byteOf b' (256 * c + 11 + 35 * (t % 7) + 2) = 0 := by omega
  simp [g1, e4]

/-- **C94, locked text files.** Deleting any other file takes a locked text file off the listing (and all that is written behind it in
its catalog sector): its entry is written back unlocked, and an unlocked text file ends the listing. -/
theorem C94_locked_text {b : Bytes} {cs : List Nat} {m m' : DImg} {name : Bytes} (hm : DImg.open b = .ok m) (v : Volume33 b cs)
    (hv : 272 ∉ cs) (hn : sectors33 b = 560) (h : DImg.deleteFile name m = (.ok (), m')) {t p : Nat} (hp : (catSeen33 b cs)[t]? = some p)
    (hl : byteOf b p ≠ 255) (h0 : (fileInfo33 b p).ftype = 0) (hne : (fileInfo33 b p).name ≠ name) :
    ∀ u, t ≤ u → u / 7 = t / 7 → slotPos33 cs u ∉ catSeen33 m'.bytes cs := by
  intro u hu hs
  obtain ⟨i, q, g1, g2, _, hpk⟩ := C94_delete hm v hv hn h
  have hti : t ≠ i := by
    rintro rfl
    rw [hp] at g1
    cases g1
    exact hne g2
  have hk : kept33 b p = some { fileInfo33 b p with name := rstripWs (fileInfo33 b p).name, locked := false } := by
    unfold kept33; rw [if_neg hl]
  refine C94_text hpk (t := t) (f := { fileInfo33 b p with name := rstripWs (fileInfo33 b p).name, locked := false }) ?_ h0 rfl hu hs
  rw [List.getElem?_set_ne (by omega), List.getElem?_map, hp]
  exact congrArg some hk

theorem getDirectory_open {b : Bytes} {cs : List Nat} {m : DImg} (hm : DImg.open b = .ok m) (v : Volume33 b cs) (hn : sectors33 b = 560) :
    DImg.getDirectory m = (.ok (catList33 560 b cs 0), m) ∧ m.allSane = true := by
  have hb := v.size
  obtain ⟨_, h1, _, ds0, hcl, hfi, hsane⟩ := open33_ok hm
  obtain ⟨_, _, _, h3, h2, _⟩ := C77_opens b m hm
  have hallS : m.allSane = true := by
    have := hm
    rw [open33_eq hb, if_pos v.boot, if_pos v.start, catLoop_of_chain hb 0 v.chain] at this
    simp only at this
    split at this
    · injection this with this; rw [← this]
    · cases this
  refine ⟨?_, hallS⟩
  have hx : catLoop m.maxSectors m.bytes (m.maxSectors + 1) m.firstDir 0 = .ok (catList33 (sectors33 b) b cs 0) := by
    rw [h1, h2, h3]; exact catLoop_of_chain hb 0 v.chain
  rw [h1] at hx
  rw [hx] at hcl
  injection hcl with hcl
  unfold DImg.getDirectory
  rw [h1, hx]
  have e1 : (catList33 (sectors33 b) b cs 0).filter (fun d => d.isSane && !d.deleted) = m.files := by rw [hcl]; exact hfi.symm
  have e2 : (m.allSane && (catList33 (sectors33 b) b cs 0).all (·.isSane)) = m.allSane := by
    rw [hcl, List.all_eq_true.mpr hsane, Bool.and_true]
  simp only
  rw [e1, e2, hn, ← h1]

/-- an image with such a catalog opens if the other image does -/
theorem Packed33.volume_boot {b b' : Bytes} {cs : List Nat} {slots : List (Option FileInfo33)} (h : Packed33 b b' cs slots) (v : Volume33 b cs)
    (hn : sectors33 b = 560)
    (hgood : ∀ f, some f ∈ slots → f.ftype ≠ 0 ∨ f.locked = true → f.track ≠ 0 ∧ f.first < 560 ∧ f.sectors ≤ 560)
    (h0 : b'.take 4 ≠ [1, 56, 176, 3]) (hk : VtocKept b b') : Volume33 b' cs ∧ sectors33 b' = 560 := by
  have hsec : ∀ i, i < 0x38 → secByte33 b' 272 i = secByte33 b 272 i := by
    intro i hi
    have := hk.keep i hi
    rw [getD_sec33 (by omega), getD_sec33 (by omega)] at this
    unfold secByte33
    rw [this]
  have hn' : sectors33 b' = sectors33 b := by unfold sectors33; rw [hsec _ (by omega), hsec _ (by omega)]
  have hp : pairAt33 b' 272 1 = pairAt33 b 272 1 := by unfold pairAt33; rw [hsec _ (by omega), hsec _ (by omega)]
  have hboot : BootOk33 b' := by
    have := v.boot
    unfold BootOk33 at this ⊢
    rw [hsec 3 (by omega), hsec 1 (by omega), hsec 2 (by omega)]
    exact ⟨h0, this.2⟩
  refine ⟨⟨h.size, hboot, by rw [hp, hn']; exact v.start, ?_, ?_⟩, hn'.trans hn⟩
  · rw [hp, hn']
    have hch := v.chain
    have hl := h.link
    clear h v
    generalize pairAt33 b 272 1 = s at hch
    revert hl
    induction hch with
    | done => intro _; exact .done
    | @next s cs h0 h1 h2 _ ih =>
      intro hl
      refine .next h0 h1 h2 ?_
      rw [hl s (by simp)]
      exact ih fun x hx => hl x (by simp [hx])
  · intro p hp'
    rw [hn', hn]
    obtain ⟨x, hx, hpx⟩ := List.mem_flatMap.mp hp'
    obtain ⟨j, hj⟩ := List.getElem?_of_mem hx
    have hpos : p ∈ entryPos33 x := (List.takeWhile_sublist _).subset hpx
    have hlast : lastEntry33 b' p = false := by
      have hall := List.all_takeWhile (l := entryPos33 x) (p := fun p => !lastEntry33 b' p)
      rw [List.all_eq_true] at hall
      simpa using hall p hpx
    unfold entryPos33 at hpos
    obtain ⟨i, hi, rfl⟩ := List.mem_map.mp hpos
    have hi7 := List.mem_range.mp hi
    have hjx : cs.getD j 0 = x := by rw [List.getD_eq_getElem?_getD, hj]; rfl
    rcases Nat.lt_or_ge j ((slots.length + 6) / 7) with hlt | hge
    · have hsp : slotPos33 cs (7 * j + i) = 256 * x + 11 + 35 * i := by
        unfold slotPos33
        rw [show (7 * j + i) / 7 = j by omega, show (7 * j + i) % 7 = i by omega, hjx]
      rcases Nat.lt_or_ge (7 * j + i) slots.length with hs | hs
      · have hslot := h.slot _ _ (List.getElem?_eq_getElem hs)
        rw [hsp] at hslot
        cases hv : slots[7 * j + i] with
        | none =>
          rw [hv] at hslot
          exact .inl hslot
        | some f =>
          rw [hv] at hslot
          obtain ⟨k1, k2⟩ := hslot
          have := hgood f (by rw [← hv]; exact List.getElem_mem hs) (by
            unfold lastEntry33 at hlast
            rw [← k2]
            show byteOf b' (256 * x + 11 + 35 * i + 2) % 128 ≠ 0 ∨ decide (128 ≤ byteOf b' (256 * x + 11 + 35 * i + 2)) = true
            have : byteOf b' (256 * x + 11 + 35 * i + 2) ≠ 0 := by
              intro h0
              rw [h0] at hlast
              simp [k1] at hlast
            by_cases h128 : 128 ≤ byteOf b' (256 * x + 11 + 35 * i + 2)
            · exact .inr (decide_eq_true h128)
            · exact .inl (by omega))
          rw [← k2] at this
          exact .inr this
      · exfalso
        have hz := h.zero _ hs (by omega)
        rw [hsp] at hz
        have hg : ∀ k, k < 35 → byteOf b' (256 * x + 11 + 35 * i + k) = 0 := by
          intro k hk
          have : ((slice b' (256 * x + 11 + 35 * i) (256 * x + 11 + 35 * i + 35)).getD k 0).toNat = ((List.replicate 35 (0 : UInt8)).getD k 0).toNat := by rw [hz]
          rw [slice_getD (by omega), List.getD_eq_getElem?_getD (l := List.replicate 35 0), List.getElem?_replicate, if_pos hk] at this
          exact this
        unfold lastEntry33 at hlast
        have h00 := hg 0 (by omega)
        rw [Nat.add_zero] at h00
        rw [h00, hg 2 (by omega)] at hlast
        cases hlast
    · have hsame := h.later j x hge hj
      have hbyte : ∀ k, k < 256 → byteOf b' (256 * x + k) = byteOf b (256 * x + k) := by
        intro k hk
        have : ((sec33 b' x).getD k 0).toNat = ((sec33 b x).getD k 0).toNat := by rw [hsame]
        rw [getD_sec33 hk, getD_sec33 hk] at this
        exact this
      have hseen : seenEntries33 b' x = seenEntries33 b x := by
        rw [seenEntries33_eq, seenEntries33_eq, hsame]
      have hgb := v.good _ (List.mem_flatMap.mpr ⟨x, hx, by rw [← hseen]; exact hpx⟩)
      rw [hn] at hgb
      unfold GoodEntry33 at hgb ⊢
      have e0 := hbyte (11 + 35 * i) (by omega)
      have e1 := hbyte (11 + 35 * i + 1) (by omega)
      have e33 := hbyte (11 + 35 * i + 33) (by omega)
      have e34 := hbyte (11 + 35 * i + 34) (by omega)
      simp only [← Nat.add_assoc] at e0 e1 e33 e34
      rw [e0, e1, e33, e34]
      exact hgb

theorem Packed33.volume {b b' : Bytes} {cs : List Nat} {slots : List (Option FileInfo33)} (h : Packed33 b b' cs slots) (v : Volume33 b cs)
    (hn : sectors33 b = 560)
    (hgood : ∀ f, some f ∈ slots → f.ftype ≠ 0 ∨ f.locked = true → f.track ≠ 0 ∧ f.first < 560 ∧ f.sectors ≤ 560) (h0 : sec33 b' 0 = sec33 b 0)
    (hk : VtocKept b b') : Volume33 b' cs ∧ sectors33 b' = 560 := by
  refine h.volume_boot v hn hgood ?_ hk
  have ht : b'.take 4 = b.take 4 := by
    have := congrArg (List.take 4) h0
    unfold sec33 at this
    simpa [slice, List.take_take] using this
  rw [ht]
  exact v.boot.1

/-- **C94, when deleting succeeds.** The first entry with the name is that of a file, its list can be followed, its sectors are in
the bitmap, and the entries fit in all catalog sectors but the last. -/
theorem C94_delete_succeeds {b : Bytes} {cs : List Nat} {m : DImg} (hm : DImg.open b = .ok m) (v : Volume33 b cs) (hv : 272 ∉ cs)
    (hn : sectors33 b = 560) {name : Bytes} {pre post : List Nat} {p : Nat} (hp : catSeen33 b cs = pre ++ p :: post) (hl : byteOf b p ≠ 255)
    (hname : (fileInfo33 b p).name = name) (hpre : ∀ q ∈ pre, (fileInfo33 b q).name ≠ name)
    {ts : List Nat} (hts : ListChain33 560 b (fileInfo33 b p).first ts)
    (hsec : ∀ s ∈ ts ++ dataSectors33 b (fileInfo33 b p).sectors ts, s < 800) (hroom : ((catSeen33 b cs).length + 6) / 7 < cs.length) :
    ∃ m', DImg.deleteFile name m = (.ok (), m') ∧ DImg.open m'.bytes = .ok m' ∧ Volume33 m'.bytes cs ∧ sectors33 m'.bytes = 560 ∧
      Packed33 b m'.bytes cs (((catSeen33 b cs).map (kept33 b)).set pre.length none) ∧
      (∀ s, s ∉ cs → s ≠ 272 → sec33 m'.bytes s = sec33 b s) ∧
      (∀ s, IsFree33 m'.bytes s ↔ IsFree33 b s ∨ s ∈ ts ++ dataSectors33 b (fileInfo33 b p).sectors ts) ∧
      ∀ i, i < 0x38 → secByte33 m'.bytes 272 i = secByte33 b 272 i := by
  have hb := v.size
  obtain ⟨_, _, h1, h3, h2, _⟩ := C77_opens b m hm
  obtain ⟨hdir, hallS⟩ := getDirectory_open hm v hn
  have hmax : m.maxSectors = 560 := h2.trans hn
  have hcsne : cs ≠ [] := by rintro rfl; simp at hroom
  have hlen : (catList33 560 b cs 0).length = (catSeen33 b cs).length := by
    unfold catList33 catSeen33; rw [List.length_map, List.length_zipIdx]
  have hget : ∀ (j q : Nat), (catSeen33 b cs)[j]? = some q → (catList33 560 b cs 0)[j]? = some (entryAt33 560 b j q) := by
    intro j q hq
    rw [getElem?_catList33, hq]; rfl
  have hp0 := hget pre.length p (by rw [hp, List.getElem?_append_right (Nat.le_refl _)]; simp)
  have hlt : pre.length < (catList33 560 b cs 0).length := by rw [hlen, hp]; simp
  have hfind : findDirentIdx33 (catList33 560 b cs 0) name = .ok (pre.length, entryAt33 560 b pre.length p) := by
    unfold findDirentIdx33
    have : (catList33 560 b cs 0).findIdx? (fun e => e.filename == name) = some pre.length := by
      rw [List.findIdx?_eq_some_iff_getElem]
      refine ⟨hlt, ?_, fun j hj => ?_⟩
      · have := (List.getElem?_eq_some_iff.mp hp0).2
        rw [this, parseName_info, hname]
        simp
      · have hj' : (catSeen33 b cs)[j]? = some pre[j] := by
          rw [hp, List.getElem?_append_left hj, List.getElem?_eq_getElem hj]
        have := (List.getElem?_eq_some_iff.mp (hget j _ hj')).2
        rw [this, parseName_info]
        have := hpre _ (List.getElem_mem hj)
        simpa using this
    rw [this]
    simp only
    rw [List.getD_eq_getElem?_getD, hp0]
    rfl
  have hinfo := entryAt33_info (n := 560) (k := pre.length) hl
  have hfirst : secOfTS (entryAt33 560 b pre.length p).track (entryAt33 560 b pre.length p).sector = (fileInfo33 b p).first :=
    congrArg FileInfo33.first hinfo
  have hnum : (entryAt33 560 b pre.length p).numSectors = (fileInfo33 b p).sectors := congrArg FileInfo33.sectors hinfo
  have hdenc := (entryAt33_encodable 560 b pre.length p).1
  generalize hd : entryAt33 560 b pre.length p = d at *
  generalize hsecs : ts ++ dataSectors33 b (fileInfo33 b p).sectors ts = secs at *
  have hsv : d.sectorsInVtoc 560 b = .ok secs := by
    unfold DDirent.sectorsInVtoc
    rw [tsMap_of_chain (hfirst ▸ hts), hnum]
    simp only
    rw [hsecs]
  have hvl := length_sec33 hb (by omega : 272 < 560)
  obtain ⟨map', m1, m2, m3⟩ := freeSectors_ok secs (vtocMap33 (sec33 b 272))
    (fun n hn => by rw [length_vtocMap33]; have := hsec n hn; omega)
  obtain ⟨w, b1, b2, b3⟩ := calcBitmap33 (m := m) (by rw [h1]; exact hb) map'
  have ho : VtocOnly b (splice b (256 * 272) (vtocStore33 (sec33 b 272) map')) := VtocOnly.store hb (.refl _) map'
  have hsl := length_vtocStore33 hvl map'
  have hsA : sec33 (splice b (256 * 272) (vtocStore33 (sec33 b 272) map')) 272 = vtocStore33 (sec33 b 272) map' :=
    sec33_splice_same hb (by omega) hsl
  rw [h1] at b1 b3
  generalize splice b (256 * 272) (vtocStore33 (sec33 b 272) map') = bA at *
  have hAl : bA.length = 143360 := ho.size.trans hb
  have hkeep : ∀ x ∈ cs, sec33 bA x = sec33 b x := fun x hx => ho.others x (fun h => hv (h ▸ hx))
  have hchain : CatChain33 560 bA m.firstDir cs := by
    rw [h3, ← hn]
    exact v.chain.frame hkeep
  have henc : ∀ x ∈ (catList33 560 b cs 0).set pre.length d.markDeleted, x.Encodable := by
    intro x hx
    rcases List.mem_or_eq_of_mem_set hx with hx | hx
    · obtain ⟨k, q, rfl⟩ := mem_catList33 hx
      exact (entryAt33_encodable _ _ _ _).1
    · rw [hx]
      exact ⟨hdenc.ascii, hdenc.short, hdenc.type, fun h => by cases h⟩
  have hne : (catList33 560 b cs 0).set pre.length d.markDeleted ≠ [] := by
    intro hnil
    have := congrArg List.length hnil
    rw [List.length_set] at this
    simp only [List.length_nil] at this
    omega
  obtain ⟨cat, hcat⟩ : ∃ cat, DImg.calcCatSectors { m with bytes := bA } ((catList33 560 b cs 0).set pre.length d.markDeleted) = .ok cat := by
    obtain ⟨encs, e1, e2, e3, _⟩ := encodeAll33_ok _ henc
    have hnee : encs ≠ [] := by
      intro h; rw [h] at e2; exact hne (List.length_eq_zero_iff.mp e2.symm)
    have hws := calcSectors33 hnee e3
    have hwl : (calcSectors freshCatSec encs).length = (chunks 7 encs).length := by have := congrArg List.length hws; simpa using this
    obtain ⟨cat, q1, _⟩ := numberCat_ok hAl (calcSectors freshCatSec encs) (chain33_of_cat hchain) (by
      rw [hwl, length_chunks 7 (by omega), e2, List.length_set, hlen]
      omega)
    refine ⟨cat, ?_⟩
    unfold DImg.calcCatSectors
    rw [e1]
    simp only
    rw [hmax, q1]
  obtain ⟨z1, z2, z3⟩ := catWritten (m := { m with bytes := bA }) hAl hmax hchain hcsne hne henc hcat
  have hvw : Writable33 [w] := by
    intro w' hw'
    rw [List.mem_singleton.mp hw', b2, b3]
    exact ⟨by omega, hsl⟩
  have hl2 := length_writeAll33 [w] bA hAl hvw
  have hbody : DImg.deleteBody name m = (.ok (), { m with bytes := writeAll33 (writeAll33 bA [w]) cat }) := by
    unfold DImg.deleteBody
    rw [hdir]
    simp only
    rw [hfind]
    simp only
    rw [show d.sectorsInVtoc m.maxSectors m.bytes = .ok secs by rw [hmax, h1]; exact hsv]
    simp only
    have hgv : m.getVtocMap = .ok (vtocMap33 (sec33 b 272)) := by
      unfold DImg.getVtocMap getSec33
      rw [if_pos (by omega), h1]
    rw [hgv]
    simp only
    rw [m1]
    simp only
    rw [b1]
    simp only
    rw [hcat]
    simp only
    rw [writeSectors33_eq [w] { m with bytes := bA } hAl hmax hvw]
    simp only
    rw [writeSectors33_eq cat { m with bytes := writeAll33 bA [w] } hl2 hmax z1]
  have hw1 : ∀ s, s ≠ 272 → sec33 (writeAll33 bA [w]) s = sec33 b s := by
    intro s hs
    rw [sec33_writeAll_other [w] bA hAl hvw s (fun w' hw' he => by
      rw [List.mem_singleton.mp hw', b2] at he
      exact hs he.symm)]
    exact ho.others s hs
  have hw272 : sec33 (writeAll33 bA [w]) 272 = vtocStore33 (sec33 b 272) map' := by
    have := sec33_writeAll_mem [w] bA hAl hvw (by simp) w (by simp)
    rw [b2, b3] at this
    exact this
  obtain ⟨hres, _⟩ := z3 (writeAll33 bA [w]) hl2 (fun x hx => (hw1 x (fun h => hv (h ▸ hx))).trans (hkeep x hx).symm)
  have hoth := sec33_writeAll_other cat (writeAll33 bA [w]) hl2 z1
  have hnot : ∀ s, s ∉ cs → sec33 (writeAll33 (writeAll33 bA [w]) cat) s = sec33 (writeAll33 bA [w]) s :=
    fun s hs => hoth s (fun w' hw' he => hs (he ▸ z2 w' hw'))
  generalize writeAll33 (writeAll33 bA [w]) cat = b' at *
  have hslots : ((catList33 560 b cs 0).set pre.length d.markDeleted).map (fun d => if d.deleted then none else some (d.reread 0).info) =
      ((catSeen33 b cs).map (kept33 b)).set pre.length none := by
    rw [List.map_set]
    have : (if d.markDeleted.deleted = true then none else some (DDirent.reread 0 d.markDeleted).info) = none := rfl
    rw [this]
    congr 1
    refine List.ext_getElem? fun j => ?_
    rw [List.getElem?_map, List.getElem?_map, getElem?_catList33, Option.map_map]
    cases (catSeen33 b cs)[j]? with
    | none => rfl
    | some q => exact congrArg some (entryAt33_kept b j q)
  rw [hslots] at hres
  have hpk : Packed33 b b' cs (((catSeen33 b cs).map (kept33 b)).set pre.length none) :=
    ⟨hres.size, hres.room, hres.slot, hres.zero,
      fun j x hj hx => (hres.later j x hj hx).trans (hkeep x (List.mem_of_getElem? hx)),
      fun x hx => (hres.link x hx).trans (by rw [← linkOf_sec33, ← linkOf_sec33]; exact congrArg linkOf (hkeep x hx))⟩
  have hs272 : sec33 b' 272 = vtocStore33 (sec33 b 272) map' := (hnot 272 hv).trans hw272
  have h0cs : 0 ∉ cs := fun h => (chain33_of_cat hchain).lt 0 h |>.1 rfl
  obtain ⟨hvol, hn'⟩ := hpk.volume v hn (by
    intro f hf _
    rcases List.mem_or_eq_of_mem_set hf with hf | hf
    · obtain ⟨q, hq, hqf⟩ := List.mem_map.mp hf
      unfold kept33 at hqf
      by_cases hq255 : byteOf b q = 255
      · rw [if_pos hq255] at hqf; cases hqf
      · rw [if_neg hq255] at hqf
        injection hqf with hqf
        have hg := v.good q hq
        rw [hn] at hg
        rcases hg with hg | hg
        · exact absurd hg hq255
        · rw [← hqf]
          exact hg
    · cases hf) ((hnot 0 h0cs).trans (hw1 0 (by omega))) (vtocKept_store hb hs272)
  obtain ⟨mO, hO⟩ := C77_volume hvol
  have hOb := (open33_ok hO).2.1
  refine ⟨mO, ?_, by rw [hOb]; exact hO, by rw [hOb]; exact hvol, by rw [hOb]; exact hn', by rw [hOb]; exact hpk, ?_, ?_, ?_⟩
  · unfold DImg.deleteFile DImg.transaction
    simp only
    rw [hbody]
    simp only
    exact getMetadata33_of_open (m2 := { m with bytes := b' }) hO rfl hmax hallS
  · intro s h1 h2
    rw [hOb, hnot s h1, hw1 s h2]
  · intro s
    rw [hOb, isFree33_store hpk.size hvl hs272, m3, isFree33_iff hb]
    by_cases hms : s ∈ secs
    · rw [if_pos hms]
      have := hsec s hms
      simp only [hms, or_true, iff_true, and_true]
      exact this
    · rw [if_neg hms]
      refine ⟨fun h => .inl h.2, fun h => ?_⟩
      rcases h with h | h
      · exact ⟨((isFree33_iff hb s).mpr h).1, h⟩
      · exact absurd h hms
  · intro i hi
    have := (vtocKept_store hb hs272).keep i hi
    rw [getD_sec33 (by omega), getD_sec33 (by omega)] at this
    rw [hOb]
    unfold secByte33
    rw [this]

/-- **C94, entries that cannot be removed.** An entry in a catalog sector behind those that are rewritten stays as it is, and stays
listed, whatever file is deleted: its own name included. -/
theorem C94_stays {b : Bytes} {cs : List Nat} {m m' : DImg} {name : Bytes} (hm : DImg.open b = .ok m) (v : Volume33 b cs) (hv : 272 ∉ cs)
    (hn : sectors33 b = 560) (h : DImg.deleteFile name m = (.ok (), m')) {j x q : Nat} (hj : ((catSeen33 b cs).length + 6) / 7 ≤ j)
    (hx : cs[j]? = some x) (hq : q ∈ seenEntries33 b x) (hl : byteOf b q ≠ 255) :
    q ∈ fileEntries33 m'.bytes cs ∧ fileInfo33 m'.bytes q = fileInfo33 b q := by
  obtain ⟨i, p, _, _, _, hpk⟩ := C94_delete hm v hv hn h
  have hs := hpk.later j x (by rw [List.length_set, List.length_map]; exact hj) hx
  have hseen : seenEntries33 m'.bytes x = seenEntries33 b x := by rw [seenEntries33_eq, seenEntries33_eq, hs]
  have hpos : q ∈ entryPos33 x := (List.takeWhile_sublist _).subset hq
  unfold entryPos33 at hpos
  obtain ⟨k, hk, rfl⟩ := List.mem_map.mp hpos
  have hk7 := List.mem_range.mp hk
  have hbyte : ∀ k, k < 256 → byteOf m'.bytes (256 * x + k) = byteOf b (256 * x + k) := by
    intro k hk
    have : ((sec33 m'.bytes x).getD k 0).toNat = ((sec33 b x).getD k 0).toNat := by rw [hs]
    rw [getD_sec33 hk, getD_sec33 hk] at this
    exact this
  have hb : ∀ c, c < 35 → byteOf m'.bytes (256 * x + 11 + 35 * k + c) = byteOf b (256 * x + 11 + 35 * k + c) := by
    intro c hc
    have := hbyte (11 + 35 * k + c) (by omega)
    simpa only [← Nat.add_assoc] using this
  have hb0 : byteOf m'.bytes (256 * x + 11 + 35 * k) = byteOf b (256 * x + 11 + 35 * k) := hb 0 (by omega)
  refine ⟨?_, ?_⟩
  · unfold fileEntries33
    rw [List.mem_filter]
    refine ⟨List.mem_flatMap.mpr ⟨x, List.mem_of_getElem? hx, by rw [hseen]; exact hq⟩, ?_⟩
    rw [hb0]
    simpa using hl
  · unfold fileInfo33
    rw [hb0, hb 1 (by omega), hb 2 (by omega), hb 33 (by omega), hb 34 (by omega)]
    have hsl : slice m'.bytes (256 * x + 11 + 35 * k + 3) (256 * x + 11 + 35 * k + 32) = slice b (256 * x + 11 + 35 * k + 3) (256 * x + 11 + 35 * k + 32) := by
      have e : ∀ y : Bytes, slice y (256 * x + 11 + 35 * k + 3) (256 * x + 11 + 35 * k + 32) = slice (sec33 y x) (11 + 35 * k + 3) (11 + 35 * k + 32) := by
        intro y
        unfold sec33
        rw [slice_slice, show min (256 * x + 256) (256 * x + (11 + 35 * k + 32)) = 256 * x + 11 + 35 * k + 32 by omega,
          show 256 * x + (11 + 35 * k + 3) = 256 * x + 11 + 35 * k + 3 by omega]
      rw [e, e, hs]
    rw [hsl]

/-! ### a disk with the entries of its two files in two catalog sectors -/

/-- catalog sector with the link `l` and the entry of a binary file of two sectors, the list at track 1, sector `s` -/
def dupCat (l s c : UInt8) : Bytes := [0, 17, l] ++ List.replicate 8 0 ++ ([1, s, 4, c] ++ List.replicate 29 0xa0 ++ [2, 0]) ++ List.replicate 210 0

/-- file `A`: sectors 17 and 18, file `B`: sectors 19 and 20; catalog: sectors 287, 286 and 285 -/
def dupSec (s : Nat) : Bytes :=
  if s = 272 then vtocBlank33 else if s = 287 then dupCat 14 1 0xc1 else if s = 286 then dupCat 13 3 0xc2
  else if s = 17 then List.replicate 12 0 ++ [1, 2] ++ List.replicate 242 0
  else if s = 19 then List.replicate 12 0 ++ [1, 4] ++ List.replicate 242 0
  else List.replicate 256 0

theorem dupSec_length (s : Nat) : (dupSec s).length = 256 := by
  unfold dupSec
  split
  · exact vtocBlank33_length
  split
  · decide +kernel
  split
  · decide +kernel
  split
  · decide +kernel
  split
  · decide +kernel
  · exact List.length_replicate

def dupDisk : Bytes := imgOf33 dupSec

theorem dupDisk_length : dupDisk.length = 143360 := imgOf33_length dupSec_length

theorem dupDisk_sec {s : Nat} (h : s < 560) : sec33 dupDisk s = dupSec s := sec33_flatMap dupSec_length h

attribute [local irreducible] dupDisk

theorem dupDisk_byte {s i : Nat} (hs : s < 560) (hi : i < 256) : secByte33 dupDisk s i = ((dupSec s).getD i 0).toNat := by
  unfold secByte33
  rw [← getD_sec33 hi, dupDisk_sec hs]

theorem dupDisk_pair {s i : Nat} (hs : s < 560) (hi : i < 255) : pairAt33 dupDisk s i = 16 * ((dupSec s).getD i 0).toNat + ((dupSec s).getD (i + 1) 0).toNat := by
  unfold pairAt33
  rw [dupDisk_byte hs (by omega), dupDisk_byte hs (by omega)]

theorem dupDisk_seen : catSeen33 dupDisk [287, 286, 285] = [73483, 73227] := by
  unfold catSeen33
  rw [List.flatMap_cons, List.flatMap_cons, List.flatMap_cons, List.flatMap_nil, List.append_nil, seenEntries33_eq, seenEntries33_eq, seenEntries33_eq,
    dupDisk_sec (by omega), dupDisk_sec (by omega), dupDisk_sec (by omega)]
  decide +kernel

theorem dupDisk_at {s p j : Nat} (hs : s < 560) (hp : p = 256 * s + 11) (h : j < 256 - 11) : byteOf dupDisk (p + j) = ((dupSec s).getD (11 + j) 0).toNat := by
  have := dupDisk_byte (s := s) (i := 11 + j) hs (by omega)
  unfold secByte33 at this
  unfold byteOf
  rw [hp, show 256 * s + 11 + j = 256 * s + (11 + j) by omega, this]

theorem dupDisk_sectors : sectors33 dupDisk = 560 := by
  unfold sectors33; rw [dupDisk_byte (by omega) (by omega), dupDisk_byte (by omega) (by omega)]; decide +kernel

theorem dupDisk_info {s p : Nat} (hs : s < 560) (hp : p = 256 * s + 11) : fileInfo33 dupDisk p = fileInfo33 (dupSec s) 11 := by
  have hsl : slice dupDisk (p + 3) (p + 32) = slice (dupSec s) 14 43 := by
    rw [← dupDisk_sec hs]
    unfold sec33
    rw [slice_slice, hp]
    congr 1
    omega
  have h0 := dupDisk_at (j := 0) hs hp (by omega)
  rw [Nat.add_zero] at h0
  unfold fileInfo33
  rw [hsl, h0, dupDisk_at hs hp (by omega), dupDisk_at hs hp (by omega), dupDisk_at hs hp (by omega), dupDisk_at hs hp (by omega)]
  rfl

theorem dupDisk_infoA : fileInfo33 dupDisk 73483 = ⟨[0x41], 4, false, 17, 2, 1⟩ := by
  rw [dupDisk_info (s := 287) (by omega) (by omega)]; decide +kernel

theorem dupDisk_infoB : fileInfo33 dupDisk 73227 = ⟨[0x42], 4, false, 19, 2, 1⟩ := by
  rw [dupDisk_info (s := 286) (by omega) (by omega)]; decide +kernel

theorem dupDisk_live : byteOf dupDisk 73483 = 1 ∧ byteOf dupDisk 73227 = 1 :=
  ⟨congrArg FileInfo33.track dupDisk_infoA, congrArg FileInfo33.track dupDisk_infoB⟩

theorem dupDisk_volume : Volume33 dupDisk [287, 286, 285] := by
  have h2 : pairAt33 dupDisk 272 1 = 287 := by rw [dupDisk_pair (by omega) (by omega)]; decide +kernel
  have h3 := dupDisk_sectors
  refine ⟨dupDisk_length, ⟨?_, fun _ => ?_⟩, by rw [h2, h3]; omega, ?_, ?_⟩
  · have h : dupDisk.take 4 = (dupSec 0).take 4 := by
      rw [← dupDisk_sec (by omega)]
      simp [sec33, slice, List.take_take]
    rw [h]
    decide +kernel
  · rw [dupDisk_byte (by omega) (by omega), dupDisk_byte (by omega) (by omega)]; decide +kernel
  · rw [h2, h3]
    refine .next (by omega) (by omega) (by omega) ?_
    rw [dupDisk_pair (by omega) (by omega), show 16 * ((dupSec 287).getD 1 0).toNat + ((dupSec 287).getD (1 + 1) 0).toNat = 286 by decide +kernel]
    refine .next (by omega) (by omega) (by omega) ?_
    rw [dupDisk_pair (by omega) (by omega), show 16 * ((dupSec 286).getD 1 0).toNat + ((dupSec 286).getD (1 + 1) 0).toNat = 285 by decide +kernel]
    refine .next (by omega) (by omega) (by omega) ?_
    rw [dupDisk_pair (by omega) (by omega), show 16 * ((dupSec 285).getD 1 0).toNat + ((dupSec 285).getD (1 + 1) 0).toNat = 0 by decide +kernel]
    exact .done
  · intro p hp
    have : p ∈ catSeen33 dupDisk [287, 286, 285] := hp
    rw [dupDisk_seen] at this
    rw [h3]
    right
    have key : ∀ f : FileInfo33, fileInfo33 dupDisk p = f → f.track ≠ 0 ∧ f.first < 560 ∧ f.sectors ≤ 560 →
        byteOf dupDisk p ≠ 0 ∧ 16 * byteOf dupDisk p + byteOf dupDisk (p + 1) < 560 ∧ byteOf dupDisk (p + 33) + 256 * byteOf dupDisk (p + 34) ≤ 560 := by
      rintro f rfl h
      exact h
    rcases List.mem_cons.mp this with rfl | this
    · exact key _ dupDisk_infoA (by decide)
    · rw [List.mem_singleton.mp this]
      rw [List.mem_singleton.mp this] at key
      exact key _ dupDisk_infoB (by decide)

theorem dupDisk_list (s : Nat) (hs : s = 17 ∨ s = 19) : ListChain33 560 dupDisk s [s] := by
  refine .next (by omega) (by omega) ?_
  rw [dupDisk_pair (by omega) (by omega)]
  rcases hs with rfl | rfl <;> exact .done

theorem dupDisk_data (s : Nat) (hs : s = 17 ∨ s = 19) : dataSectors33 dupDisk 2 [s] = [s + 1] := by
  unfold dataSectors33
  rw [List.flatMap_cons, List.flatMap_nil, List.append_nil]
  show (listPairs33 dupDisk s).take 1 = [s + 1]
  unfold listPairs33
  show [pairAt33 dupDisk s (12 + 2 * 0)] = [s + 1]
  rw [dupDisk_pair (by omega) (by omega)]
  rcases hs with rfl | rfl <;> decide +kernel

theorem dupDisk_used (s : Nat) (hs : s < 32) : ¬ IsFree33 dupDisk s := by
  intro hf
  unfold IsFree33 at hf
  rw [dupDisk_sec (by omega), show dupSec 272 = vtocBlank33 from rfl, vtocBlank33_free s (by omega)] at hf
  have := hf.2
  simp only [decide_eq_true_eq] at this
  omega

theorem names_of_entries {b : Bytes} {cs : List Nat} {m : DImg} (hm : DImg.open b = .ok m) (v : Volume33 b cs) :
    m.names = (fileEntries33 b cs).map fun p => (fileInfo33 b p).name := by
  obtain ⟨cs', v', _, _, _, _, hx⟩ := C77_opens _ _ hm
  have hcs : cs' = cs := v.chain.unique v'.chain
  subst hcs
  have hy := congrArg (List.map FileInfo33.name) hx
  rw [List.map_map, List.map_map] at hy
  exact hy

/-- **C94 as a promise is false** (once a file has been deleted it is no longer listed): there is a disk with the files `A` and `B`
on which deleting `B` succeeds, `B` is still listed, and its sectors, 19 and 20, are free. -/
theorem C94_refuted_gone : ∃ (b : Bytes) (m m' : DImg), DImg.open b = .ok m ∧ m.names = [[0x41], [0x42]] ∧ ¬ IsFree33 b 19 ∧ ¬ IsFree33 b 20 ∧
    DImg.deleteFile [0x42] m = (.ok (), m') ∧ DImg.open m'.bytes = .ok m' ∧ m'.names = [[0x41], [0x42]] ∧
    IsFree33 m'.bytes 19 ∧ IsFree33 m'.bytes 20 := by
  obtain ⟨m, hm⟩ := C77_volume dupDisk_volume
  obtain ⟨lA, lB⟩ := dupDisk_live
  have hn := dupDisk_sectors
  obtain ⟨m', d1, d2, d3, d4, d5, _, d7, _⟩ := C94_delete_succeeds hm dupDisk_volume (by decide) hn (name := [0x42]) (pre := [73483]) (post := []) (p := 73227)
    dupDisk_seen (by rw [lB]; decide) (by rw [dupDisk_infoB]) (fun q hq => by rw [List.mem_singleton.mp hq, dupDisk_infoA]; decide)
    (ts := [19]) (by rw [dupDisk_infoB]; exact dupDisk_list 19 (.inr rfl)) (by rw [dupDisk_infoB, dupDisk_data 19 (.inr rfl)]; decide)
    (by rw [dupDisk_seen]; decide)
  rw [dupDisk_infoB] at d7
  have d7 : ∀ s, IsFree33 m'.bytes s ↔ IsFree33 dupDisk s ∨ s ∈ [19] ++ dataSectors33 dupDisk 2 [19] := d7
  rw [dupDisk_data 19 (.inr rfl)] at d7
  have hslots : ((catSeen33 dupDisk [287, 286, 285]).map (kept33 dupDisk)).set 1 none = [some ⟨[0x41], 4, false, 17, 2, 1⟩, none] := by
    rw [dupDisk_seen]
    show [kept33 dupDisk 73483, none] = _
    unfold kept33
    rw [if_neg (by rw [lA]; decide), dupDisk_infoA]
    rfl
  have d5 : Packed33 dupDisk m'.bytes [287, 286, 285] (((catSeen33 dupDisk [287, 286, 285]).map (kept33 dupDisk)).set 1 none) := d5
  rw [hslots] at d5
  have hseen := C94_listing d5 (by decide) (by
    intro f hf
    simp at hf
    subst hf
    left; decide)
  have hs286 : seenEntries33 dupDisk 286 = [73227] := by rw [seenEntries33_eq, dupDisk_sec (by omega)]; decide +kernel
  have hs285 : seenEntries33 dupDisk 285 = [] := by rw [seenEntries33_eq, dupDisk_sec (by omega)]; decide +kernel
  have hseen' : catSeen33 m'.bytes [287, 286, 285] = [73483, 73518, 73227] := by
    rw [hseen]
    show [73483, 73518] ++ [286, 285].flatMap (seenEntries33 dupDisk) = _
    rw [List.flatMap_cons, List.flatMap_cons, List.flatMap_nil, hs286, hs285]
    rfl
  obtain ⟨a1, a2⟩ := d5.slot 0 _ rfl
  rw [show slotPos33 [287, 286, 285] 0 = 73483 from rfl] at a1 a2
  have a3 : byteOf m'.bytes 73518 = 255 := d5.slot 1 _ rfl
  obtain ⟨e1, e2⟩ := C94_stays hm dupDisk_volume (by decide) hn d1 (j := 1) (x := 286) (q := 73227) (by rw [dupDisk_seen]; decide) rfl
    (by rw [hs286]; decide) (by rw [lB]; decide)
  have h227 : byteOf m'.bytes 73227 = 1 := by
    have := congrArg FileInfo33.track e2
    rw [dupDisk_infoB] at this
    exact this
  have hnames : m.names = [[0x41], [0x42]] := by
    rw [names_of_entries hm dupDisk_volume]
    unfold fileEntries33
    rw [show [287, 286, 285].flatMap (seenEntries33 dupDisk) = [73483, 73227] from dupDisk_seen]
    rw [List.filter_cons, if_pos (by simp [lA]), List.filter_cons, if_pos (by simp [lB])]
    simp only [List.filter_nil, List.map_cons, List.map_nil]
    rw [dupDisk_infoA, dupDisk_infoB]
  have hnames' : m'.names = [[0x41], [0x42]] := by
    rw [names_of_entries d2 d3]
    unfold fileEntries33
    rw [show [287, 286, 285].flatMap (seenEntries33 m'.bytes) = [73483, 73518, 73227] from hseen']
    rw [List.filter_cons, if_pos (by simpa using a1), List.filter_cons, if_neg (by simp [a3]), List.filter_cons, if_pos (by simp [h227])]
    simp only [List.filter_nil, List.map_cons, List.map_nil]
    rw [a2, e2, dupDisk_infoB]
  exact ⟨dupDisk, m, m', hm, hnames, dupDisk_used 19 (by omega), dupDisk_used 20 (by omega), d1, d2, hnames',
    (d7 19).mpr (.inr (by decide)), (d7 20).mpr (.inr (by decide))⟩

/-- the same disk, deleting `A`: then `B` is listed twice -/
example : ∃ (m m' : DImg), DImg.open dupDisk = .ok m ∧ DImg.deleteFile [0x41] m = (.ok (), m') ∧ m'.names = [[0x42], [0x42]] := by
  obtain ⟨m, hm⟩ := C77_volume dupDisk_volume
  obtain ⟨lA, lB⟩ := dupDisk_live
  have hn := dupDisk_sectors
  obtain ⟨m', d1, d2, d3, d4, d5, _, _⟩ := C94_delete_succeeds hm dupDisk_volume (by decide) hn (name := [0x41]) (pre := []) (post := [73227]) (p := 73483)
    dupDisk_seen (by rw [lA]; decide) (by rw [dupDisk_infoA]) (fun q hq => by cases hq)
    (ts := [17]) (by rw [dupDisk_infoA]; exact dupDisk_list 17 (.inl rfl)) (by rw [dupDisk_infoA, dupDisk_data 17 (.inl rfl)]; decide)
    (by rw [dupDisk_seen]; decide)
  have hslots : ((catSeen33 dupDisk [287, 286, 285]).map (kept33 dupDisk)).set 0 none = [none, some ⟨[0x42], 4, false, 19, 2, 1⟩] := by
    rw [dupDisk_seen]
    show [none, kept33 dupDisk 73227] = _
    unfold kept33
    rw [if_neg (by rw [lB]; decide), dupDisk_infoB]
    rfl
  have d5 : Packed33 dupDisk m'.bytes [287, 286, 285] (((catSeen33 dupDisk [287, 286, 285]).map (kept33 dupDisk)).set 0 none) := d5
  rw [hslots] at d5
  have hseen := C94_listing d5 (by decide) (by
    intro f hf
    simp at hf
    subst hf
    left; decide)
  have hs286 : seenEntries33 dupDisk 286 = [73227] := by rw [seenEntries33_eq, dupDisk_sec (by omega)]; decide +kernel
  have hs285 : seenEntries33 dupDisk 285 = [] := by rw [seenEntries33_eq, dupDisk_sec (by omega)]; decide +kernel
  have hseen' : catSeen33 m'.bytes [287, 286, 285] = [73483, 73518, 73227] := by
    rw [hseen]
    show [73483, 73518] ++ [286, 285].flatMap (seenEntries33 dupDisk) = _
    rw [List.flatMap_cons, List.flatMap_cons, List.flatMap_nil, hs286, hs285]
    rfl
  have a3 : byteOf m'.bytes 73483 = 255 := d5.slot 0 _ rfl
  obtain ⟨a1, a2⟩ := d5.slot 1 _ rfl
  rw [show slotPos33 [287, 286, 285] 1 = 73518 from rfl] at a1 a2
  obtain ⟨_, e2⟩ := C94_stays hm dupDisk_volume (by decide) hn d1 (j := 1) (x := 286) (q := 73227) (by rw [dupDisk_seen]; decide) rfl
    (by rw [hs286]; decide) (by rw [lB]; decide)
  have h227 : byteOf m'.bytes 73227 = 1 := by
    have := congrArg FileInfo33.track e2
    rw [dupDisk_infoB] at this
    exact this
  refine ⟨m, m', hm, d1, ?_⟩
  rw [names_of_entries d2 d3]
  unfold fileEntries33
  rw [show [287, 286, 285].flatMap (seenEntries33 m'.bytes) = [73483, 73518, 73227] from hseen']
  rw [List.filter_cons, if_neg (by simp [a3]), List.filter_cons, if_pos (by simpa using a1), List.filter_cons, if_pos (by simp [h227])]
  simp only [List.filter_nil, List.map_cons, List.map_nil]
  rw [a2, e2, dupDisk_infoB]

/-- adding a file to the blank disk -/
example : ∃ m' f, DImg.writeFile [0x41] 4 [1, 2, 3] (mount33 blank33 []) = (.ok (), m') ∧ f.name = [0x41] ∧ f.ftype = 4 ∧
    Packed33 blank33 m'.bytes catBlank33 [some f] := by
  have hw := (C10_write_succeeds_iff (name := [0x41]) (data := [1, 2, 3]) (ftype := 4) mounted_blank33 (by omega) (by omega) (by
    rw [show (mount33 blank33 []).names = [] from rfl]; simp)).mpr ⟨by simp, by unfold Ascii33; decide, by
      rw [show (mount33 blank33 []).files = [] from rfl]; decide, by
      rw [mount33_bytes, template33_pool blank33_template]; decide⟩
  generalize h : DImg.writeFile [0x41] 4 [1, 2, 3] (mount33 blank33 []) = y at hw
  obtain ⟨r, m'⟩ := y
  simp only at hw
  subst hw
  have h1 := mounted_blank33.1
  rw [mount33_bytes] at h1
  obtain ⟨cs, v, _, _, h2, _, hx⟩ := C77_opens _ _ h1
  have hn : sectors33 blank33 = 560 := h2.symm
  have hc := template33_consistent blank33_template
  have hcs : cs = catBlank33 := by
    have := v.chain
    rw [hn] at this
    have h3 := chain33_of_cat this
    rw [← linkOf_sec33] at h3
    exact h3.unique hc.cat
  subst hcs
  have hseen : catSeen33 blank33 catBlank33 = [] := by
    have := catLoop_of_chain v.size 0 v.chain
    rw [hn, ← linkOf_sec33, hc.catLoop] at this
    have this := congrArg List.length (Except.ok.inj this)
    unfold catList33 at this
    rw [List.length_map, List.length_zipIdx] at this
    exact List.length_eq_zero_iff.mp this.symm
  obtain ⟨i, f, a1, _, _, a4, a5, _, _, a8⟩ := C94_write h1 v (by decide) hn (by decide) (fun x hx => by
    rw [template33_free blank33_template]
    have : ∀ x ∈ catBlank33, 272 ≤ x ∧ x < 288 := by decide
    have := this x hx
    omega) (by omega) h
  rw [hseen] at a1 a8
  have : i = 0 := by simpa using a1
  subst this
  exact ⟨m', f, rfl, a4, a5, a8⟩

end Atr
