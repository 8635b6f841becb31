import Verif.Spec.Dos33Open
import Verif.Props.Dos33Crash
/-!
# C77: which files open as DOS 3.3 volumes, and what is listed
-/
namespace Atr

theorem chunks_slices {α : Type} (n : Nat) (hn : 0 < n) : ∀ (k : Nat) (v : List α), v.length = n * k →
    chunks n v = (List.range k).map fun i => slice v (n * i) (n * i + n) := by
  intro k
  induction k with
  | zero =>
    intro v hv
    have : v = [] := List.length_eq_zero_iff.mp (by simpa using hv)
    rw [this]
    simp
  | succ k ih =>
    intro v hv
    rw [Nat.mul_add_one] at hv
    have h1 : (v.take n).length = n := by rw [List.length_take]; omega
    conv => lhs; rw [← List.take_append_drop n v, chunks_append n hn _ _ h1, ih (v.drop n) (by rw [List.length_drop]; omega)]
    rw [List.range_succ_eq_map, List.map_cons, List.map_map]
    congr 1
    · unfold slice
      rw [Nat.mul_zero, Nat.zero_add, List.drop_zero]
    · refine List.map_congr_left fun i _ => ?_
      show slice (v.drop n) (n * i) (n * i + n) = slice v (n * (i + 1)) (n * (i + 1) + n)
      unfold slice
      rw [List.take_drop, List.drop_drop, Nat.mul_add_one]
      congr 1
      · omega
      · congr 1; omega

theorem catEntries_pos {b : Bytes} {s : Nat} (h : (sec33 b s).length = 256) :
    catEntries (sec33 b s) = (entryPos33 s).map fun p => slice b p (p + 35) := by
  unfold catEntries entryPos33
  rw [chunks_slices 35 (by omega) 7 _ (by rw [List.length_drop]; omega), List.map_map]
  refine List.map_congr_left fun i hi => ?_
  rw [List.mem_range] at hi
  show slice ((sec33 b s).drop 11) (35 * i) (35 * i + 35) = slice b (256 * s + 11 + 35 * i) (256 * s + 11 + 35 * i + 35)
  have : (sec33 b s).drop 11 = slice (sec33 b s) 11 256 := by
    unfold slice
    rw [List.take_of_length_le (by omega)]
  rw [this, slice_slice]
  unfold sec33
  rw [slice_slice]
  congr 1 <;> omega

theorem slice_getD {b : Bytes} {p j k : Nat} (h : p + j < k) : (slice b p k).getD j 0 = b.getD (p + j) 0 := by
  unfold slice
  rw [List.getD_eq_getElem?_getD, List.getD_eq_getElem?_getD, List.getElem?_drop, List.getElem?_take_of_lt h]

/-- the entry stored at `p` -/
def entryAt33 (n : Nat) (b : Bytes) (k p : Nat) : DDirent := DDirent.parse n k (slice b p (p + 35))

theorem toNat_beq_ff (x : UInt8) : (x == 0xff) = decide (x.toNat = 255) := by
  by_cases h : x = 0xff
  · subst h; rfl
  · have : x.toNat ≠ 255 := fun h' => h (UInt8.toNat_inj.mp h')
    rw [decide_eq_false this]
    simpa using h

theorem entryAt33_deleted (n : Nat) (b : Bytes) (k p : Nat) : (entryAt33 n b k p).deleted = decide (byteOf b p = 255) := by
  show (((slice b p (p + 35)).getD 0 0) == 0xff) = _
  rw [slice_getD (by omega), toNat_beq_ff]
  rfl

theorem lor_eq_zero_iff (x y : Nat) : x ||| y = 0 ↔ x = 0 ∧ y = 0 := Nat.or_eq_zero_iff

theorem entryAt33_flag (n : Nat) (b : Bytes) (k p : Nat) : (entryAt33 n b k p).flag = 0 ↔ lastEntry33 b p = true := by
  have h2 : (entryAt33 n b k p).ftype = byteOf b (p + 2) % 128 := by
    show ((slice b p (p + 35)).getD 2 0).toNat % 128 = _
    rw [slice_getD (by omega)]
    rfl
  have h3 : (entryAt33 n b k p).locked = decide (128 ≤ byteOf b (p + 2)) := by
    show decide (128 ≤ ((slice b p (p + 35)).getD 2 0).toNat) = _
    rw [slice_getD (by omega)]
    rfl
  have h256 : byteOf b (p + 2) < 256 := UInt8.toNat_lt _
  unfold DDirent.flag lastEntry33
  rw [entryAt33_deleted, h2, h3]
  by_cases hd : byteOf b p = 255
  · rw [decide_eq_true hd, if_pos rfl, hd]
    simp
  · rw [decide_eq_false hd, if_neg (by decide), lor_eq_zero_iff]
    by_cases hl : 128 ≤ byteOf b (p + 2)
    · rw [decide_eq_true hl, if_pos rfl]
      simp
      omega
    · rw [decide_eq_false hl]
      simp [hd]
      omega

theorem entryAt33_sane (n : Nat) (b : Bytes) (k p : Nat) : (entryAt33 n b k p).isSane = true ↔ GoodEntry33 n b p := by
  have h0 : ∀ j, j < 35 → ((slice b p (p + 35)).getD j 0).toNat = byteOf b (p + j) := fun j hj => by
    rw [slice_getD (by omega)]
    rfl
  have h00 : ((slice b p (p + 35)).getD 0 0).toNat = byteOf b p := h0 0 (by omega)
  show DDirent.sanityCheck n _ = true ↔ _
  unfold DDirent.sanityCheck GoodEntry33
  simp only
  rw [toNat_beq_ff, h00]
  by_cases hd : byteOf b p = 255
  · rw [decide_eq_true hd, if_pos rfl]
    simp [hd]
  · rw [decide_eq_false hd]
    simp only [Bool.false_eq_true, if_false]
    have hz : (slice b p (p + 35)).getD 0 0 = 0 ↔ byteOf b p = 0 := by
      rw [← h00]
      exact ⟨fun h => by rw [h]; rfl, fun h => UInt8.toNat_inj.mp h⟩
    unfold secOfTS le16
    rw [h00, h0 1 (by omega), h0 33 (by omega), h0 34 (by omega)]
    by_cases hz' : byteOf b p = 0
    · rw [if_pos (hz.mpr hz')]
      simp [hz']
    · rw [if_neg (fun h => hz' (hz.mp h))]
      by_cases h1 : 16 * byteOf b p + byteOf b (p + 1) < n
      · rw [if_neg (by omega)]
        by_cases h2 : byteOf b (p + 33) + 256 * byteOf b (p + 34) ≤ n
        · rw [if_neg (by omega)]
          simp [hd, hz', h1, h2]
        · rw [if_pos (by omega)]
          simp [hd, h2]
      · rw [if_pos (by omega)]
        simp [hd, h1]

theorem scanCat_pos (n : Nat) (b : Bytes) : ∀ (ps : List Nat) (num : Nat), scanCatSec n num (ps.map fun p => slice b p (p + 35)) =
    ((ps.takeWhile fun p => !lastEntry33 b p).zipIdx num).map fun x => entryAt33 n b x.2 x.1 := by
  intro ps
  induction ps with
  | nil => intro _; rfl
  | cons p ps ih =>
    intro num
    rw [List.map_cons, List.takeWhile_cons]
    show (if (entryAt33 n b num p).flag = 0 then [] else entryAt33 n b num p :: scanCatSec n (num + 1) (ps.map fun p => slice b p (p + 35))) = _
    by_cases hf : lastEntry33 b p = true
    · rw [if_pos ((entryAt33_flag n b num p).mpr hf), hf]
      rfl
    · rw [if_neg (fun h => hf ((entryAt33_flag n b num p).mp h)), ih]
      have : lastEntry33 b p = false := by simpa using hf
      rw [this]
      rfl

theorem catLoop_succ {n : Nat} {b : Bytes} (hb : b.length = 143360) (fuel s num : Nat) : catLoop n b (fuel + 1) s num =
    if s = 0 then .ok [] else if n ≤ s then .error .byteNotInFile else if 560 ≤ s then .error .indexError
    else match catLoop n b fuel (pairAt33 b s 1) (num + (seenEntries33 b s).length) with
      | .error e => .error e
      | .ok l => .ok (((seenEntries33 b s).zipIdx num).map (fun x => entryAt33 n b x.2 x.1) ++ l) := by
  rw [catLoop]
  by_cases h0 : s = 0
  · rw [if_pos h0, if_pos h0]
  rw [if_neg h0, if_neg h0]
  by_cases h1 : n ≤ s
  · rw [if_pos (by omega), if_pos h1]
  rw [if_neg (by omega), if_neg h1]
  simp only
  by_cases h2 : 560 ≤ s
  · rw [if_pos (by rw [(sec33_nil_iff hb s).mpr h2]; decide), if_pos h2]
  have hl := length_sec33 hb (s := s) (by omega)
  rw [if_neg (by omega), if_neg h2, catEntries_pos hl, scanCat_pos]
  have hlink : linkOf (sec33 b s) = pairAt33 b s 1 := by
    rw [← linkOf_list]
    unfold listSec33
    rw [ofData_full hl]
  rw [hlink, List.length_map, List.length_zipIdx]
  rfl

/-- what the catalog lists, given its sectors -/
def catList33 (n : Nat) (b : Bytes) (cs : List Nat) (num : Nat) : List DDirent :=
  ((cs.flatMap (seenEntries33 b)).zipIdx num).map fun x => entryAt33 n b x.2 x.1

theorem catLoop_chain {n : Nat} {b : Bytes} (hb : b.length = 143360) {s cs} (h : CatChain33 n b s cs) : ∀ fuel num, cs.length < fuel →
    catLoop n b fuel s num = .ok (catList33 n b cs num) := by
  induction h with
  | done =>
    intro fuel num hf
    cases fuel with
    | zero => omega
    | succ fuel => rw [catLoop_succ hb, if_pos rfl]; rfl
  | @next s cs h0 h1 h2 _ ih =>
    intro fuel num hf
    cases fuel with
    | zero => omega
    | succ fuel =>
      rw [catLoop_succ hb, if_neg h0, if_neg (by omega), if_neg (by omega), ih fuel _ (by simp only [List.length_cons] at hf; omega)]
      unfold catList33
      rw [List.flatMap_cons, List.zipIdx_append, List.map_append]

theorem catLoop_out {n : Nat} {b : Bytes} (hb : b.length = 143360) {s t} (h : CatOut33 n b s t) : ∃ k, ∀ fuel num, k < fuel →
    catLoop n b fuel s num = .error (if n ≤ t then .byteNotInFile else .indexError) := by
  induction h with
  | @here s h0 h1 =>
    refine ⟨0, fun fuel num hf => ?_⟩
    cases fuel with
    | zero => omega
    | succ fuel =>
      rw [catLoop_succ hb, if_neg h0]
      by_cases h : n ≤ s
      · rw [if_pos h, if_pos h]
      · rw [if_neg h, if_neg h, if_pos (h1.resolve_left h)]
  | @next s t h0 h1 h2 _ ih =>
    obtain ⟨k, hk⟩ := ih
    refine ⟨k + 1, fun fuel num hf => ?_⟩
    cases fuel with
    | zero => omega
    | succ fuel => rw [catLoop_succ hb, if_neg h0, if_neg (by omega), if_neg (by omega), hk fuel _ (by omega)]

theorem catLoop_inv {n : Nat} {b : Bytes} (hb : b.length = 143360) : ∀ (fuel s num : Nat), catLoop n b fuel s num = .error .hang ∨
    (∃ cs, CatChain33 n b s cs ∧ cs.length < fuel) ∨
    (∃ t, CatOut33 n b s t ∧ catLoop n b fuel s num = .error (if n ≤ t then .byteNotInFile else .indexError)) := by
  intro fuel
  induction fuel with
  | zero => intro s num; exact Or.inl rfl
  | succ fuel ih =>
    intro s num
    rw [catLoop_succ hb]
    by_cases h0 : s = 0
    · subst h0; exact Or.inr (Or.inl ⟨[], .done, by simp⟩)
    rw [if_neg h0]
    by_cases h1 : n ≤ s
    · rw [if_pos h1]
      exact Or.inr (Or.inr ⟨s, .here h0 (Or.inl h1), by rw [if_pos h1]⟩)
    rw [if_neg h1]
    by_cases h2 : 560 ≤ s
    · rw [if_pos h2]
      exact Or.inr (Or.inr ⟨s, .here h0 (Or.inr h2), by rw [if_neg h1]⟩)
    rw [if_neg h2]
    rcases ih (pairAt33 b s 1) (num + (seenEntries33 b s).length) with h | ⟨cs, h, hl⟩ | ⟨t, h, h'⟩
    · rw [h]; exact Or.inl rfl
    · exact Or.inr (Or.inl ⟨s :: cs, .next h0 (by omega) (by omega) h, by simp only [List.length_cons]; omega⟩)
    · rw [h']; exact Or.inr (Or.inr ⟨t, .next h0 (by omega) (by omega) h, rfl⟩)

theorem catLoop_not_hang {n : Nat} {b : Bytes} {s num : Nat} {r} (h : ∃ fuel, catLoop n b fuel s num = r) (hr : r ≠ .error .hang) :
    catLoop n b (n + 1) s num ≠ .error .hang := by
  intro hh
  obtain ⟨fuel, h⟩ := h
  rw [(C46_dos33_catalog_hang_iff n b s num).mp hh fuel] at h
  exact hr h.symm

theorem CatChain33.not_out {n : Nat} {b : Bytes} {s cs} (h : CatChain33 n b s cs) (t : Nat) : ¬ CatOut33 n b s t := by
  induction h with
  | done =>
    intro h
    cases h with
    | here h => exact h rfl
    | next h => exact h rfl
  | next h0 h1 h2 _ ih =>
    intro h
    cases h with
    | here _ h => omega
    | next _ _ _ h => exact ih h

theorem CatChain33.unique {n : Nat} {b : Bytes} {s cs cs'} (h : CatChain33 n b s cs) : CatChain33 n b s cs' → cs' = cs := by
  induction h generalizing cs' with
  | done =>
    intro h
    cases h with
    | done => rfl
    | next h => exact absurd rfl h
  | next h0 h1 h2 _ ih =>
    intro h
    cases h with
    | done => exact absurd rfl h0
    | next _ _ _ h => rw [ih h]

theorem CatOut33.unique {n : Nat} {b : Bytes} {s t t'} (h : CatOut33 n b s t) : CatOut33 n b s t' → t' = t := by
  induction h generalizing t' with
  | here h0 h1 =>
    intro h
    cases h with
    | here => rfl
    | next => omega
  | next h0 h1 h2 _ ih =>
    intro h
    cases h with
    | here => omega
    | next _ _ _ h => exact ih h

theorem catLoop_of_chain {n : Nat} {b : Bytes} (hb : b.length = 143360) {s cs} (num : Nat) (h : CatChain33 n b s cs) :
    catLoop n b (n + 1) s num = .ok (catList33 n b cs num) := by
  rcases catLoop_inv hb (n := n) (n + 1) s num with h1 | ⟨cs', h1, h2⟩ | ⟨t, h1, _⟩
  · exact absurd h1 (catLoop_not_hang ⟨_, catLoop_chain hb h _ _ (Nat.lt_succ_self _)⟩ (by simp))
  · have := h.unique h1
    subst this
    exact catLoop_chain hb h1 _ _ h2
  · exact absurd h1 (h.not_out t)

theorem catLoop_of_out {n : Nat} {b : Bytes} (hb : b.length = 143360) {s t} (num : Nat) (h : CatOut33 n b s t) :
    catLoop n b (n + 1) s num = .error (if n ≤ t then .byteNotInFile else .indexError) := by
  rcases catLoop_inv hb (n := n) (n + 1) s num with h1 | ⟨cs', h1, h2⟩ | ⟨t', h1, h2⟩
  · obtain ⟨k, hk⟩ := catLoop_out hb h
    exact absurd h1 (catLoop_not_hang ⟨k + 1, hk _ _ (by omega)⟩ (by split <;> simp))
  · exact absurd h (h1.not_out t)
  · rw [h2, h.unique h1]

/-! ### opening -/

theorem getD_sec33 {b : Bytes} {s i : Nat} (h : i < 256) : (sec33 b s).getD i 0 = b.getD (256 * s + i) 0 := by
  unfold sec33
  exact slice_getD (by omega)

theorem uint8_lt_iff (x y : UInt8) : x < y ↔ x.toNat < y.toNat := Iff.rfl

theorem getBootInfo_eq (b : Bytes) : DImg.getBootInfo { bytes := b } = if BootOk33 b then .ok () else .error .invalidDiskImage := by
  have e0 : slice (sec33 b 0) 0 4 = b.take 4 := by
    unfold sec33
    rw [show 256 * 0 = 0 from rfl, slice_zero, slice_zero, List.take_take]
    rfl
  have e3 : (sec33 b 272).getD 3 0 = 3 ↔ secByte33 b 272 3 = 3 := by
    rw [getD_sec33 (by omega)]
    unfold secByte33
    constructor
    · intro h; rw [h]; rfl
    · intro h; exact UInt8.toNat_inj.mp h
  unfold DImg.getBootInfo getSec33
  rw [if_pos (by show 0 < 560; omega), if_pos (by show 272 < 560; omega), if_pos (by show 286 < 560; omega)]
  simp only
  rw [e0]
  by_cases h0 : b.take 4 = [1, 56, 176, 3]
  · rw [if_pos h0, if_neg (fun h : BootOk33 b => h.1 h0)]
  rw [if_neg h0]
  by_cases h3 : secByte33 b 272 3 = 3
  · rw [if_pos (e3.mpr h3), getD_sec33 (by omega), getD_sec33 (by omega)]
    by_cases h4 : b.getD (256 * 272 + 1) 0 < 35 ∧ b.getD (256 * 272 + 2) 0 < 16
    · rw [if_pos h4, if_pos (show BootOk33 b from And.intro h0 (fun _ => h4))]
    · rw [if_neg h4, if_neg (fun h : BootOk33 b => h4 (h.2 h3))]
  · rw [if_neg (fun h => h3 (e3.mp h)), if_pos (show BootOk33 b from And.intro h0 (fun h => absurd h h3))]

theorem getVtoc33_eq (b : Bytes) : DImg.getVtoc { bytes := b } =
    (if pairAt33 b 272 1 < sectors33 b then .ok () else .error .byteNotInFile,
      { bytes := b, firstDir := pairAt33 b 272 1, maxSectors := sectors33 b, tsPairs := secByte33 b 272 0x27 }) := by
  unfold DImg.getVtoc getSec33
  rw [if_pos (by show 272 < 560; omega)]
  simp only
  rw [getD_sec33 (by omega), getD_sec33 (by omega), getD_sec33 (by omega), getD_sec33 (by omega), getD_sec33 (by omega)]
  have e1 : secOfTS (b.getD (256 * 272 + 1) 0) (b.getD (256 * 272 + 2) 0) = pairAt33 b 272 1 := by
    unfold secOfTS pairAt33 secByte33
    rw [Nat.mul_comm]
  rw [e1]
  show (if pairAt33 b 272 1 < sectors33 b then _ else _) = _
  by_cases h : pairAt33 b 272 1 < sectors33 b
  · rw [if_pos h, if_pos h]; rfl
  · rw [if_neg h, if_neg h]; rfl

/-- the outcome of opening, step by step -/
theorem open33_eq {b : Bytes} (hb : b.length = 143360) : DImg.open b =
    if BootOk33 b then
      if pairAt33 b 272 1 < sectors33 b then
        match catLoop (sectors33 b) b (sectors33 b + 1) (pairAt33 b 272 1) 0 with
        | .error e => .error e
        | .ok ds =>
          if ds.all (·.isSane) then
            .ok { bytes := b, firstDir := pairAt33 b 272 1, maxSectors := sectors33 b, tsPairs := secByte33 b 272 0x27
                  files := ds.filter (fun d => d.isSane && !d.deleted), allSane := true }
          else .error .invalidDiskImage
      else .error .byteNotInFile
    else .error .invalidDiskImage := by
  unfold DImg.open
  rw [if_neg (by omega)]
  unfold DImg.getMetadata
  rw [getBootInfo_eq]
  by_cases h0 : BootOk33 b
  · rw [if_pos h0, if_pos h0]
    simp only
    rw [getVtoc33_eq]
    by_cases h1 : pairAt33 b 272 1 < sectors33 b
    · rw [if_pos h1, if_pos h1]
      simp only
      unfold DImg.getDirectory
      simp only
      cases catLoop (sectors33 b) b (sectors33 b + 1) (pairAt33 b 272 1) 0 with
      | error e => rfl
      | ok ds =>
        simp only [Bool.true_and]
        cases ds.all (·.isSane) <;> rfl
    · rw [if_neg h1, if_neg h1]
  · rw [if_neg h0, if_neg h0]

/-- the catalog of the image is in sectors `cs`, and all its entries that are looked at are good -/
structure Volume33 (b : Bytes) (cs : List Nat) : Prop where
  size : b.length = 143360
  boot : BootOk33 b
  start : pairAt33 b 272 1 < sectors33 b
  chain : CatChain33 (sectors33 b) b (pairAt33 b 272 1) cs
  good : ∀ p ∈ cs.flatMap (seenEntries33 b), GoodEntry33 (sectors33 b) b p

/-- the entries of the files: those that are looked at and not marked as deleted -/
def fileEntries33 (b : Bytes) (cs : List Nat) : List Nat := (cs.flatMap (seenEntries33 b)).filter fun p => byteOf b p ≠ 255

theorem zipIdx_mem {α : Type} {l : List α} {k : Nat} {x : α × Nat} (h : x ∈ l.zipIdx k) : x.1 ∈ l := by
  have := (List.mem_zipIdx h).2.2
  rw [this]
  exact List.getElem_mem _

theorem all_sane_iff (n : Nat) (b : Bytes) (cs : List Nat) (num : Nat) :
    (catList33 n b cs num).all (·.isSane) = true ↔ ∀ p ∈ cs.flatMap (seenEntries33 b), GoodEntry33 n b p := by
  unfold catList33
  generalize cs.flatMap (seenEntries33 b) = l
  rw [List.all_eq_true]
  constructor
  · intro h p hp
    obtain ⟨i, hi, rfl⟩ := List.getElem_of_mem hp
    refine (entryAt33_sane n b (num + i) _).mp (h _ (List.mem_map.mpr ⟨(l[i], num + i), ?_, rfl⟩))
    rw [List.mem_iff_getElem]
    exact ⟨i, by rw [List.length_zipIdx]; exact hi, by rw [List.getElem_zipIdx]⟩
  · intro h d hd
    obtain ⟨x, hx, rfl⟩ := List.mem_map.mp hd
    exact (entryAt33_sane n b _ _).mpr (h _ (zipIdx_mem hx))

/-- what the directory entry object says about the file -/
def DDirent.info (d : DDirent) : FileInfo33 := ⟨d.filename, d.ftype, d.locked, secOfTS d.track d.sector, d.numSectors, d.track.toNat⟩

theorem entryAt33_info {n : Nat} {b : Bytes} {k p : Nat} (h : byteOf b p ≠ 255) : (entryAt33 n b k p).info = fileInfo33 b p := by
  have h0 : ∀ j, j < 35 → ((slice b p (p + 35)).getD j 0).toNat = byteOf b (p + j) := fun j hj => by
    rw [slice_getD (by omega)]
    rfl
  have h00 : ((slice b p (p + 35)).getD 0 0).toNat = byteOf b p := h0 0 (by omega)
  have ht : (entryAt33 n b k p).track = (slice b p (p + 35)).getD 0 0 := by
    show (if ((slice b p (p + 35)).getD 0 0 == 0xff) = true then _ else _) = _
    rw [toNat_beq_ff, h00, decide_eq_false h]
    rfl
  unfold DDirent.info fileInfo33
  rw [ht]
  have e1 : (entryAt33 n b k p).filename = (rstripWs ((slice b (p + 3) (p + 32)).map (· - 0x80))).filter (· < 0x80) := by
    show parseName33 (slice b p (p + 35)) = _
    unfold parseName33
    rw [slice_slice]
    congr 4
    omega
  have e2 : (entryAt33 n b k p).ftype = byteOf b (p + 2) % 128 := congrArg (· % 128) (h0 2 (by omega))
  have e3 : (entryAt33 n b k p).locked = decide (128 ≤ byteOf b (p + 2)) := by
    show decide (128 ≤ ((slice b p (p + 35)).getD 2 0).toNat) = _
    rw [h0 2 (by omega)]
  have e4 : secOfTS ((slice b p (p + 35)).getD 0 0) (entryAt33 n b k p).sector = 16 * byteOf b p + byteOf b (p + 1) := by
    show ((slice b p (p + 35)).getD 0 0).toNat * 16 + ((slice b p (p + 35)).getD 1 0).toNat = _
    rw [h00, h0 1 (by omega)]
    omega
  have e5 : (entryAt33 n b k p).numSectors = byteOf b (p + 33) + 256 * byteOf b (p + 34) := by
    show le16 ((slice b p (p + 35)).getD 33 0) ((slice b p (p + 35)).getD 34 0) = _
    unfold le16
    rw [h0 33 (by omega), h0 34 (by omega)]
  rw [e1, e2, e3, e4, e5, h00]

theorem files_info (n : Nat) (b : Bytes) (l : List Nat) (k : Nat) (h : ∀ p ∈ l, GoodEntry33 n b p) :
    (((l.zipIdx k).map fun x => entryAt33 n b x.2 x.1).filter fun d => d.isSane && !d.deleted).map DDirent.info =
    (l.filter fun p => byteOf b p ≠ 255).map (fileInfo33 b) := by
  induction l generalizing k with
  | nil => rfl
  | cons p l ih =>
    have hg := (entryAt33_sane n b k p).mpr (h p (List.mem_cons_self ..))
    have ih := ih (k + 1) fun p hp => h p (List.mem_cons_of_mem _ hp)
    rw [List.zipIdx_cons, List.map_cons, List.filter_cons, List.filter_cons, hg, entryAt33_deleted]
    by_cases hd : byteOf b p = 255
    · rw [decide_eq_true hd, if_neg (by decide), if_neg (by simpa using hd), ih]
    · rw [decide_eq_false hd, if_pos (by decide), if_pos (by simpa using hd), List.map_cons, List.map_cons, ih, entryAt33_info hd]

/-- **C77.** A file opens as a DOS 3.3 volume exactly if it is one, and what is listed are its files, in the order of the
catalog. -/
theorem C77_opens (b : Bytes) (m : DImg) : DImg.open b = .ok m → ∃ cs, Volume33 b cs ∧ m.bytes = b ∧
    m.firstDir = pairAt33 b 272 1 ∧ m.maxSectors = sectors33 b ∧ m.tsPairs = secByte33 b 272 0x27 ∧
    m.files.map DDirent.info = (fileEntries33 b cs).map (fileInfo33 b) := by
  intro h
  have hb : b.length = 143360 := (open33_ok h).1
  rw [open33_eq hb] at h
  by_cases h0 : BootOk33 b
  · rw [if_pos h0] at h
    by_cases h1 : pairAt33 b 272 1 < sectors33 b
    · rw [if_pos h1] at h
      rcases catLoop_inv hb (n := sectors33 b) (sectors33 b + 1) (pairAt33 b 272 1) 0 with h2 | ⟨cs, h2, _⟩ | ⟨t, h2, h3⟩
      · rw [h2] at h; cases h
      · rw [catLoop_of_chain hb 0 h2] at h
        simp only at h
        by_cases h3 : (catList33 (sectors33 b) b cs 0).all (·.isSane) = true
        · rw [if_pos h3] at h
          injection h with h
          subst h
          have hg := (all_sane_iff _ _ _ _).mp h3
          exact ⟨cs, ⟨hb, h0, h1, h2, hg⟩, rfl, rfl, rfl, rfl, files_info _ _ _ _ hg⟩
        · rw [if_neg h3] at h; cases h
      · rw [h3] at h; cases h
    · rw [if_neg h1] at h; cases h
  · rw [if_neg h0] at h; cases h

/-- **C77, the other direction.** -/
theorem C77_volume {b : Bytes} {cs : List Nat} (v : Volume33 b cs) : ∃ m, DImg.open b = .ok m := by
  rw [open33_eq v.size, if_pos v.boot, if_pos v.start, catLoop_of_chain v.size 0 v.chain]
  simp only
  rw [if_pos ((all_sane_iff _ _ _ _).mpr v.good)]
  exact ⟨_, rfl⟩

/-- **C77, everything else.** Which exception is raised for a file that is no DOS 3.3 volume: `InvalidDiskImage` for the wrong size, a ProDOS disk, a
start of the catalog that a release 3 disk cannot have, or a catalog entry that is not good; `ByteNotInFile` if the catalog
leads to a sector that the disk does not have; `IndexError`, which nothing catches, if it leads to one that the image does not
have; and if it goes round in circles, opening does not end. -/
theorem C77_errors (b : Bytes) :
    (b.length ≠ 143360 → DImg.open b = .error .invalidDiskImage) ∧
    (b.length = 143360 →
      (¬ BootOk33 b → DImg.open b = .error .invalidDiskImage) ∧
      (BootOk33 b →
        (sectors33 b ≤ pairAt33 b 272 1 → DImg.open b = .error .byteNotInFile) ∧
        (pairAt33 b 272 1 < sectors33 b →
          (∀ t, CatOut33 (sectors33 b) b (pairAt33 b 272 1) t → DImg.open b = .error (if sectors33 b ≤ t then .byteNotInFile else .indexError)) ∧
          (∀ cs, CatChain33 (sectors33 b) b (pairAt33 b 272 1) cs → (∃ p ∈ cs.flatMap (seenEntries33 b), ¬ GoodEntry33 (sectors33 b) b p) →
            DImg.open b = .error .invalidDiskImage) ∧
          ((∀ t, ¬ CatOut33 (sectors33 b) b (pairAt33 b 272 1) t) → (∀ cs, ¬ CatChain33 (sectors33 b) b (pairAt33 b 272 1) cs) →
            DImg.open b = .error .hang)))) := by
  refine ⟨fun h => ?_, fun hb => ⟨fun h => ?_, fun h0 => ⟨fun h => ?_, fun h1 => ⟨fun t h => ?_, fun cs h ⟨p, h2, h3⟩ => ?_, fun h2 h3 => ?_⟩⟩⟩⟩
  · unfold DImg.open
    rw [if_pos h]
  · rw [open33_eq hb, if_neg h]
  · rw [open33_eq hb, if_pos h0, if_neg (by omega)]
  · rw [open33_eq hb, if_pos h0, if_pos h1, catLoop_of_out hb 0 h]
  · rw [open33_eq hb, if_pos h0, if_pos h1, catLoop_of_chain hb 0 h]
    simp only
    rw [if_neg (fun hh => h3 ((all_sane_iff _ _ _ _).mp hh p h2))]
  · rw [open33_eq hb, if_pos h0, if_pos h1]
    rcases catLoop_inv hb (n := sectors33 b) (sectors33 b + 1) (pairAt33 b 272 1) 0 with h | ⟨cs, h, _⟩ | ⟨t, h, _⟩
    · rw [h]
    · exact absurd h (h3 cs)
    · exact absurd h (h2 t)

theorem takeWhile_index {α : Type} {P : α → Bool} : ∀ {l : List α} {i : Nat} (h : i < l.length), P l[i] = false →
    ∀ x ∈ l.takeWhile P, ∃ j, ∃ h : j < l.length, j < i ∧ l[j] = x := by
  intro l
  induction l with
  | nil => intro i h; cases h
  | cons y l ih =>
    intro i h hp x hx
    rw [List.takeWhile_cons] at hx
    cases hy : P y with
    | false => rw [hy] at hx; cases hx
    | true =>
      rw [hy, if_pos rfl] at hx
      cases i with
      | zero => rw [List.getElem_cons_zero, hy] at hp; cases hp
      | succ i =>
        rcases List.mem_cons.mp hx with rfl | hx
        · exact ⟨0, by simp, by omega, rfl⟩
        · obtain ⟨j, h1, h2, h3⟩ := ih (by simpa using h) hp x hx
          exact ⟨j + 1, by simpa using h1, by omega, by simpa using h3⟩

/-- **C77, unlocked text files.** The flag byte of an unlocked text file is 0 and ends the listing of its catalog sector: the file
itself and all files behind it in that sector are not listed. -/
theorem C77_text_hides {b : Bytes} {s i : Nat} (hi : i < 7) (ht : byteOf b (256 * s + 11 + 35 * i) ≠ 255)
    (hf : byteOf b (256 * s + 11 + 35 * i + 2) = 0) :
    ∀ p ∈ seenEntries33 b s, ∃ j, j < i ∧ p = 256 * s + 11 + 35 * j := by
  intro p hp
  have hl : (entryPos33 s).length = 7 := by unfold entryPos33; rw [List.length_map, List.length_range]
  have hg : ∀ k (h : k < (entryPos33 s).length), (entryPos33 s)[k] = 256 * s + 11 + 35 * k := by
    intro k h
    simp [entryPos33]
  obtain ⟨j, h1, h2, h3⟩ := takeWhile_index (i := i) (by omega) (by rw [hg]; simp [lastEntry33, ht, hf]) p hp
  exact ⟨j, h2, by rw [← h3, hg]⟩

/-! ### examples -/

/-- the blank disk: no files -/
example : ∃ cs, Volume33 blank33 cs := by
  have h := mounted_blank33.1
  rw [mount33_bytes] at h
  obtain ⟨cs, v, _⟩ := C77_opens _ _ h
  exact ⟨cs, v⟩

/-- the disk with the locked text file `A`: it is listed -/
example : ∃ cs, Volume33 emptyFileDisk cs ∧ (fileEntries33 emptyFileDisk cs).map (fileInfo33 emptyFileDisk) = [⟨[0x41], 0, true, 303, 1, 18⟩] := by
  obtain ⟨cs, v, _, _, _, _, h⟩ := C77_opens _ _ emptyFileDisk_open
  refine ⟨cs, v, ?_⟩
  rw [← h]
  rfl

/-- catalog sector with an unlocked text file `A` and a binary file `B` -/
def textCat : Bytes :=
  List.replicate 11 0 ++ ([18, 15, 0, 0xc1] ++ List.replicate 29 0xa0 ++ [2, 0]) ++ ([18, 14, 4, 0xc2] ++ List.replicate 29 0xa0 ++ [2, 0]) ++
    List.replicate 175 0

/-- sectors of a disk with these two files -/
def textSec (s : Nat) : Bytes := if s = 272 then vtocBlank33 else if s = 287 then textCat else List.replicate 256 0

theorem textSec_length (s : Nat) : (textSec s).length = 256 := by
  unfold textSec
  split
  · exact vtocBlank33_length
  · split
    · decide +kernel
    · exact List.length_replicate

/-- neither file is listed -/
example : seenEntries33 (imgOf33 textSec) 287 = [] := by
  have hc : sec33 (imgOf33 textSec) 287 = textCat := by
    rw [show sec33 (imgOf33 textSec) 287 = textSec 287 from sec33_flatMap textSec_length (by omega)]
    unfold textSec
    rw [if_neg (by omega), if_pos rfl]
  generalize imgOf33 textSec = b at hc
  have hbyte : ∀ j, j < 256 → byteOf b (256 * 287 + j) = (textCat.getD j 0).toNat := by
    intro j hj
    unfold byteOf
    rw [← getD_sec33 hj, hc]
  rw [List.eq_nil_iff_forall_not_mem]
  intro p hp
  obtain ⟨j, hj, _⟩ := C77_text_hides (b := b) (s := 287) (i := 0) (by omega)
    (fun h => absurd ((hbyte 11 (by omega)).symm.trans h) (by decide +kernel)) ((hbyte 13 (by omega)).trans (by decide +kernel)) p hp
  omega

end Atr
