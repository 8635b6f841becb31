import Verif.Model.Delivery
import Verif.Spec.Delivery
import Verif.Lemmas.AtariIO
/-!
# Standard Delivery: sectors written and addresses read back
-/
namespace Atr

/-- number of the `j`-th sector of the order used by the code -/
def bootNum (j : Nat) : Nat := j / 16 * 16 + deliveryOrder.getD (j % 16) 0

theorem bootNum_eq_visited (j : Nat) : bootNum j = visited j := by
  have h : ∀ i, i < 16 → deliveryOrder.getD i 0 = dosSkew.getD (loaderPhysical i) 0 := by decide
  unfold bootNum visited
  rw [h _ (Nat.mod_lt _ (by omega)), Nat.mul_comm]

theorem order_lt : ∀ i, i < 16 → deliveryOrder.getD i 0 < 16 := by decide
theorem order_inj : ∀ i, i < 16 → ∀ k, k < 16 → deliveryOrder.getD i 0 = deliveryOrder.getD k 0 → i = k := by decide

theorem bootNum_lt_iff (j n : Nat) : bootNum j < 16 * n ↔ j < 16 * n := by
  have := order_lt (j % 16) (Nat.mod_lt _ (by omega))
  unfold bootNum; omega

theorem bootNum_inj {j k : Nat} (h : bootNum j = bootNum k) : j = k := by
  have h1 := order_lt (j % 16) (Nat.mod_lt _ (by omega))
  have h2 := order_lt (k % 16) (Nat.mod_lt _ (by omega))
  have h3 := order_inj (j % 16) (Nat.mod_lt _ (by omega)) (k % 16) (Nat.mod_lt _ (by omega))
  unfold bootNum at h
  have hm : j % 16 = k % 16 := h3 (by omega)
  rw [hm] at h
  omega

/-- sectors for pages placed from visit `j` on -/
def mkSecs : Nat → List (Nat × Bytes) → List WSector
  | _, [] => []
  | j, x :: xs => { WSector.ofData 256 x.2 with num := bootNum j } :: mkSecs (j + 1) xs

theorem mkSecs_append (j : Nat) (xs ys : List (Nat × Bytes)) : mkSecs j (xs ++ ys) = mkSecs j xs ++ mkSecs (j + xs.length) ys := by
  induction xs generalizing j with
  | nil => simp [mkSecs]
  | cons x xs ih => simp [mkSecs, ih]; congr 1; omega

/-- page of a chunk with its data -/
def chunkPage (c : Chunk) (p : Nat) : Nat × Bytes := (p, slice c.data ((p - c.start) * 256) ((p - c.start) * 256 + 256))

theorem placePages_eq (c : Chunk) : ∀ (ps : List Nat) (j : Nat), placePages c (j % 16) (j / 16) ps =
    (((j + ps.length) % 16, (j + ps.length) / 16), mkSecs j (ps.map (chunkPage c))) := by
  intro ps
  induction ps with
  | nil => intro j; simp [placePages, mkSecs]
  | cons p ps ih =>
    intro j
    have hlen : deliveryOrder.length = 16 := rfl
    simp only [placePages, hlen]
    have hst : (if j % 16 + 1 ≥ 16 then (0, j / 16 + 1) else (j % 16 + 1, j / 16)) = ((j + 1) % 16, (j + 1) / 16) := by
      split
      · rw [Prod.mk.injEq]; omega
      · rw [Prod.mk.injEq]; omega
    rw [hst]
    simp only
    rw [ih (j + 1)]
    simp only [List.map_cons, mkSecs, List.length_cons]
    rw [show j + (ps.length + 1) = j + 1 + ps.length by omega]
    rfl

/-- pages of all chunks in the order they are placed -/
def items : Bool → List Chunk → List (Nat × Bytes)
  | _, [] => []
  | first, c :: cs => (chunkPages c first).1.map (chunkPage c) ++ items (showCodes c first).2 cs

/-- the address list of the chunks -/
def addrList : Bool → List Chunk → List Nat
  | _, [] => []
  | first, c :: cs => (chunkPages c first).2 ++ (showCodes c first).1 ++ addrList (showCodes c first).2 cs

theorem deliveryLoop_eq : ∀ (cs : List Chunk) (j : Nat) (first : Bool),
    deliveryLoop (j % 16) (j / 16) first cs = (mkSecs j (items first cs), addrList first cs) := by
  intro cs
  induction cs with
  | nil => intro j first; rfl
  | cons c cs ih =>
    intro j first
    simp only [deliveryLoop, placePages_eq]
    rw [ih]
    simp only [items, addrList]
    rw [mkSecs_append, List.length_map]

/-! ### writing the sectors -/

theorem assign_sector {b d : Bytes} {n : Nat} (hb : n * 256 + 256 ≤ b.length) (hd : d.length = 256) :
    assignSlice b (n * 256) (n * 256 + 256) d = .ok (splice b (n * 256) d) := by
  unfold assignSlice
  simp only
  rw [if_pos (by rw [hd]; omega)]

theorem dsk_splice_same {b d : Bytes} {n : Nat} (hb : n * 256 + 256 ≤ b.length) (hd : d.length = 256) :
    dskSector (splice b (n * 256) d) n = d := by
  unfold dskSector
  have := slice_splice_same b d (n * 256) (by omega)
  rw [hd] at this
  rw [Nat.mul_comm 256 n]; exact this

theorem dsk_splice_other {b d : Bytes} {n s : Nat} (hb : n * 256 + 256 ≤ b.length) (hd : d.length = 256) (h : s ≠ n) :
    dskSector (splice b (n * 256) d) s = dskSector b s := by
  unfold dskSector
  apply slice_splice_disjoint b d (n * 256) _ _ (by omega)
  omega

theorem ofData256 {d : Bytes} (hd : d.length = 256) : (WSector.ofData 256 d).data = d := by
  have := (ofData_data 256 d (by omega)).1
  rw [this, hd]; simp

theorem write_mkSecs : ∀ (xs : List (Nat × Bytes)) (j : Nat) (b : Bytes), b.length = 143360 → (∀ x ∈ xs, x.2.length = 256) →
    j + xs.length ≤ 560 → ∃ b', writeDelivery (mkSecs j xs) b = .ok b' ∧ b'.length = 143360 ∧
      (∀ k x, xs[k]? = some x → dskSector b' (bootNum (j + k)) = x.2) ∧
      (∀ s, (∀ k, k < xs.length → s ≠ bootNum (j + k)) → dskSector b' s = dskSector b s) := by
  intro xs
  induction xs with
  | nil => intro j b hb _ _; exact ⟨b, rfl, hb, by simp, fun _ _ => rfl⟩
  | cons x xs ih =>
    intro j b hb hx hj
    rw [List.length_cons] at hj
    have hx0 : x.2.length = 256 := hx x (by simp)
    have hnum : bootNum j < 560 := (bootNum_lt_iff j 35).mpr (by omega)
    have hfit : bootNum j * 256 + 256 ≤ b.length := by omega
    obtain ⟨b', h1, h2, h3, h4⟩ := ih (j + 1) (splice b (bootNum j * 256) x.2) (by rw [length_splice _ _ _ (by omega)]; exact hb)
      (fun y hy => hx y (by simp [hy])) (by omega)
    refine ⟨b', ?_, h2, ?_, ?_⟩
    · simp only [mkSecs, writeDelivery]
      rw [if_pos hnum, ofData256 hx0, assign_sector hfit hx0]
      exact h1
    · intro k y hk
      cases k with
      | zero =>
        simp only [List.getElem?_cons_zero, Option.some.injEq] at hk
        subst hk
        rw [h4 _ (fun k hk e => by have := bootNum_inj e; omega)]
        exact dsk_splice_same hfit hx0
      | succ k =>
        rw [List.getElem?_cons_succ] at hk
        have := h3 k y hk
        rw [show j + 1 + k = j + (k + 1) by omega] at this
        exact this
    · intro s hs
      rw [h4 s (fun k hk e => hs (k + 1) (by rw [List.length_cons]; omega) (by rw [e]; congr 1; omega))]
      exact dsk_splice_other hfit hx0 (hs 0 (by rw [List.length_cons]; omega))

theorem write_mkSecs_fails : ∀ (xs : List (Nat × Bytes)) (j : Nat) (b : Bytes), b.length = 143360 → (∀ x ∈ xs, x.2.length = 256) →
    560 < j + xs.length → j ≤ 560 → writeDelivery (mkSecs j xs) b = .error .nameError := by
  intro xs
  induction xs with
  | nil => intro j b _ _ h h'; simp at h; omega
  | cons x xs ih =>
    intro j b hb hx hj hj'
    rw [List.length_cons] at hj
    have hx0 : x.2.length = 256 := hx x (by simp)
    simp only [mkSecs, writeDelivery]
    by_cases h : j < 560
    · have hnum : bootNum j < 560 := (bootNum_lt_iff j 35).mpr (by omega)
      have hfit : bootNum j * 256 + 256 ≤ b.length := by omega
      rw [if_pos hnum, ofData256 hx0, assign_sector hfit hx0]
      exact ih (j + 1) _ (by rw [length_splice _ _ _ (by omega)]; exact hb) (fun y hy => hx y (by simp [hy])) (by omega) (by omega)
    · rw [if_neg]
      intro hn
      exact h ((bootNum_lt_iff j 35).mp (by omega))

/-! ### chunks -/

theorem mkChunk_start (s : Seg) : (mkChunk s).start = s.origin / 256 := rfl

theorem mkChunk_padding (s : Seg) :
    (if ((s.origin / 256 == 0x20 || s.origin / 256 == 0x40) && s.origin % 256 == 1) then 0 else s.origin % 256) = loadAddr s.origin % 256 := by
  unfold loadAddr
  by_cases h : s.origin = 0x2001 ∨ s.origin = 0x4001
  · rw [if_pos h]; rcases h with h | h <;> rw [h] <;> decide
  · rw [if_neg h, if_neg]
    simp only [Bool.and_eq_true, Bool.or_eq_true, beq_iff_eq]
    omega

theorem loadAddr_page (o : Nat) : loadAddr o / 256 = o / 256 := by
  unfold loadAddr; split <;> omega

theorem mkChunk_data (s : Seg) : (mkChunk s).data =
    splice (List.replicate (pageCount s.origin s.data.length * 256) 0) (loadAddr s.origin % 256) s.data := by
  unfold mkChunk pageCount
  simp only
  rw [mkChunk_padding, show s.data.length + loadAddr s.origin % 256 = loadAddr s.origin % 256 + s.data.length by omega]

theorem mkChunk_fit (s : Seg) : loadAddr s.origin % 256 + s.data.length ≤ (List.replicate (pageCount s.origin s.data.length * 256) (0 : UInt8)).length := by
  rw [List.length_replicate]; unfold pageCount; omega

theorem mkChunk_length (s : Seg) : (mkChunk s).data.length = pageCount s.origin s.data.length * 256 := by
  rw [mkChunk_data, length_splice _ _ _ (mkChunk_fit s), List.length_replicate]

theorem mkChunk_count (s : Seg) : (mkChunk s).data.length / 256 = pageCount s.origin s.data.length := by
  rw [mkChunk_length]; omega

/-- the pages cut from a chunk are the pages of the segment -/
theorem chunkPage_mkChunk {s : Seg} {p : Nat} (h1 : s.origin / 256 ≤ p) (h2 : p < s.origin / 256 + pageCount s.origin s.data.length) :
    chunkPage (mkChunk s) p = (p, pageBytes (loadAddr s.origin) s.data p) := by
  unfold chunkPage
  rw [mkChunk_start]
  congr 1
  apply List.ext_getElem?
  intro i
  have hp := loadAddr_page s.origin
  rw [getElem?_slice, mkChunk_data, getElem?_splice _ _ _ _ (mkChunk_fit s)]
  unfold pageBytes
  by_cases hi : i < 256
  · rw [if_pos (by omega), List.getElem?_map, List.getElem?_range hi, Option.map_some, List.getD_eq_getElem?_getD, List.getElem?_replicate,
      if_pos (show (p - s.origin / 256) * 256 + i < pageCount s.origin s.data.length * 256 by omega)]
    split
    · rw [if_neg (by omega)]
    · rw [if_pos (show loadAddr s.origin ≤ 256 * p + i by omega)]
      split
      · rw [show (p - s.origin / 256) * 256 + i - loadAddr s.origin % 256 = 256 * p + i - loadAddr s.origin by omega,
          List.getElem?_eq_getElem (by omega)]
        rfl
      · rw [List.getElem?_eq_none (by omega)]; rfl
  · rw [if_neg (by omega), List.getElem?_eq_none (by simp; omega)]

theorem hgr_perm : List.Perm hgrPages (List.range' 0x20 32) := by decide

/-- the pages placed for a chunk: all of them, once each -/
theorem chunkPages_perm (c : Chunk) (first : Bool) : List.Perm (chunkPages c first).1 (List.range' c.start (c.data.length / 256)) := by
  unfold chunkPages
  simp only
  split
  · rename_i h
    rw [h.1, h.2.1]; exact hgr_perm
  · split <;> exact List.Perm.refl _

theorem chunk_items (s : Seg) (first : Bool) :
    List.Perm ((chunkPages (mkChunk s) first).1.map (chunkPage (mkChunk s))) (segPages s.origin s.data) := by
  refine ((chunkPages_perm _ first).map _).trans ?_
  rw [mkChunk_start, mkChunk_count]
  unfold segPages
  rw [List.map_congr_left]
  intro p hp
  rw [List.mem_range'_1] at hp
  exact chunkPage_mkChunk hp.1 hp.2

theorem items_perm : ∀ (segs : List Seg) (first : Bool),
    List.Perm (items first (segs.map mkChunk)) (segs.flatMap fun s => segPages s.origin s.data) := by
  intro segs
  induction segs with
  | nil => intro first; exact List.Perm.refl _
  | cons s segs ih =>
    intro first
    rw [List.map_cons, List.flatMap_cons]
    exact (chunk_items s first).append (ih _)

theorem pageBytes_length (a : Nat) (d : Bytes) (p : Nat) : (pageBytes a d p).length = 256 := by
  unfold pageBytes; rw [List.length_map, List.length_range]

theorem items_length (segs : List Seg) (first : Bool) : ∀ x ∈ items first (segs.map mkChunk), x.2.length = 256 := by
  intro x hx
  have := (items_perm segs first).mem_iff.mp hx
  rw [List.mem_flatMap] at this
  obtain ⟨s, _, hs⟩ := this
  unfold segPages at hs
  rw [List.mem_map] at hs
  obtain ⟨p, _, rfl⟩ := hs
  exact pageBytes_length _ _ _

/-! ### the address list -/

/-- the loader, wherever it left off, reads `as` from visit `j` on as the loads `L` -/
def Decodes (as : List UInt8) (j : Nat) (L : List (Nat × Nat)) : Prop := ∀ page, runLoader as page j = some L

theorem loadable_lt {p : Nat} (h : loadable p = true) : p < 0xc0 := by
  unfold loadable at h
  simp only [Bool.and_eq_true, decide_eq_true_eq] at h
  exact h.2

theorem decodes_end (as : List UInt8) (j : Nat) : Decodes (UInt8.ofNat 0xc0 :: as) j [] := by
  intro page; simp [runLoader]

theorem decodes_show {n : Nat} (h : n = 0xd1 ∨ n = 0xd2) {as : List UInt8} {j : Nat} {L : List (Nat × Nat)} (hd : Decodes as j L) :
    Decodes (UInt8.ofNat n :: as) j L := by
  intro page
  rcases h with rfl | rfl <;> (simp only [runLoader]; rw [if_neg (by decide), if_pos (by decide)]; exact hd page)

theorem runLoader_page {p : Nat} (hp : loadable p = true) (as : List UInt8) (page j : Nat) :
    runLoader (UInt8.ofNat p :: as) page j = (runLoader as (p + 1) (j + 1)).map ((p, j) :: ·) := by
  have := loadable_lt hp
  have e : (UInt8.ofNat p).toNat = p := by rw [toNat_ofNat]; omega
  simp only [runLoader, e]
  rw [if_neg (by omega), if_neg (by omega), if_neg (by omega), if_pos hp]

theorem decodes_plain : ∀ (ps : List Nat), (∀ p ∈ ps, loadable p = true) → ∀ {as : List UInt8} {j : Nat} {L : List (Nat × Nat)},
    Decodes as (j + ps.length) L → Decodes (ps.map UInt8.ofNat ++ as) j (ps.zip (List.range' j ps.length) ++ L) := by
  intro ps
  induction ps with
  | nil => intro _ as j L h; simpa using h
  | cons p ps ih =>
    intro hp as j L h page
    rw [List.map_cons, List.cons_append, runLoader_page (hp p (by simp))]
    rw [ih (fun q hq => hp q (by simp [hq])) (by rw [show j + 1 + ps.length = j + (p :: ps).length by simp; omega]; exact h)]
    rw [List.length_cons, List.range'_succ]
    rfl

theorem decodes_run {p n : Nat} (hn : 2 < n) (hn' : n ≤ 32) (hp : ∀ q ∈ List.range' p n, loadable q = true)
    {as : List UInt8} {j : Nat} {L : List (Nat × Nat)} (h : Decodes as (j + n) L) :
    Decodes (UInt8.ofNat p :: UInt8.ofNat (0xe0 + n - 1) :: as) j ((List.range' p n).zip (List.range' j n) ++ L) := by
  intro page
  obtain ⟨k, rfl⟩ : ∃ k, n = k + 1 := ⟨n - 1, by omega⟩
  rw [List.range'_succ] at hp ⊢
  rw [runLoader_page (hp p (by simp))]
  have e : (UInt8.ofNat (0xe0 + (k + 1) - 1)).toNat = 0xe0 + k := by rw [toNat_ofNat]; omega
  have e2 : (0xe0 + k) % 32 = k := by omega
  simp only [runLoader, e, e2]
  rw [if_neg (by omega), if_neg (by omega), if_pos (by omega), if_pos]
  · rw [show j + 1 + k = j + (k + 1) by omega, h (p + 1 + k), List.range'_succ]
    rfl
  · rw [List.all_eq_true]
    intro q hq
    exact hp q (by simp [hq])

theorem range'_split (a m n : Nat) (h : m ≤ n) : List.range' a n = List.range' a m ++ List.range' (a + m) (n - m) := by
  conv => lhs; rw [show n = m + (n - m) by omega]
  rw [List.range'_append_1]

theorem zip_range'_append {as bs : List Nat} (j : Nat) :
    (as ++ bs).zip (List.range' j (as ++ bs).length) = as.zip (List.range' j as.length) ++ bs.zip (List.range' (j + as.length) bs.length) := by
  rw [List.length_append, ← List.range'_append_1, List.zip_append (by simp)]

theorem decodes_group (n p : Nat) (h32 : n ≤ 32) (hp : ∀ q ∈ List.range' p n, loadable q = true) {as : List UInt8} {j : Nat}
    {L : List (Nat × Nat)} (h : Decodes as (j + n) L) :
    Decodes ((pageRun (List.range' p n)).map UInt8.ofNat ++ as) j ((List.range' p n).zip (List.range' j n) ++ L) := by
  by_cases h0 : n ≤ 2
  · have e : pageRun (List.range' p n) = List.range' p n := by
      unfold pageRun
      cases hr : List.range' p n with
      | nil => rfl
      | cons a l =>
        have := congrArg List.length hr
        rw [List.length_range'] at this
        simp only
        rw [if_neg (by omega)]
    rw [e]
    have := decodes_plain (List.range' p n) hp (as := as) (j := j) (L := L) (by rw [List.length_range']; exact h)
    rw [List.length_range'] at this
    exact this
  · obtain ⟨k, rfl⟩ : ∃ k, n = k + 1 := ⟨n - 1, by omega⟩
    have e : pageRun (List.range' p (k + 1)) = [p, 0xe0 + (k + 1) - 1] := by
      rw [List.range'_succ]
      simp only [pageRun, List.length_cons, List.length_range']
      rw [if_pos (by omega)]
    rw [e]
    exact decodes_run (by omega) h32 hp h

theorem decodes_runs : ∀ (n p : Nat), (∀ q ∈ List.range' p n, loadable q = true) → ∀ {as : List UInt8} {j : Nat} {L : List (Nat × Nat)},
    Decodes as (j + n) L → Decodes (((chunks 32 (List.range' p n)).flatMap pageRun).map UInt8.ofNat ++ as) j
      ((List.range' p n).zip (List.range' j n) ++ L) := by
  intro n
  induction n using Nat.strongRecOn with
  | _ n ih =>
    intro p hp as j L h
    by_cases h0 : n = 0
    · subst h0; simpa using h
    · have hne : List.range' p n ≠ [] := by
        intro e; have := congrArg List.length e; simp at this; omega
      rw [chunks_cons 32 (by omega) _ hne, List.flatMap_cons, List.map_append, List.append_assoc]
      by_cases h32 : n ≤ 32
      · rw [List.take_of_length_le (by simp; omega), List.drop_of_length_le (by simp; omega), chunks_nil, List.flatMap_nil, List.map_nil,
          List.nil_append]
        exact decodes_group n p h32 hp h
      · have hsp := range'_split p 32 n (by omega)
        have ht : (List.range' p n).take 32 = List.range' p 32 := by
          rw [hsp, List.take_append_of_le_length (by simp), List.take_of_length_le (by simp)]
        have hd : (List.range' p n).drop 32 = List.range' (p + 32) (n - 32) := by
          rw [hsp, List.drop_append_of_le_length (by simp), List.drop_of_length_le (by simp), List.nil_append]
        rw [ht, hd]
        have hp1 : ∀ q ∈ List.range' p 32, loadable q = true := fun q hq => hp q (by rw [hsp]; simp only [List.mem_append]; exact Or.inl hq)
        have hp2 : ∀ q ∈ List.range' (p + 32) (n - 32), loadable q = true :=
          fun q hq => hp q (by rw [hsp]; simp only [List.mem_append]; exact Or.inr hq)
        have h2 := ih (n - 32) (by omega) (p + 32) hp2 (as := as) (j := j + 32) (L := L) (by rw [show j + 32 + (n - 32) = j + n by omega]; exact h)
        have h1 := decodes_group 32 p (by omega) hp1 h2
        rw [hsp, range'_split j 32 n (by omega), List.zip_append (by simp), List.append_assoc]
        exact h1

end Atr
