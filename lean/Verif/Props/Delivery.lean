import Verif.Lemmas.Delivery
/-!
# C44 and C56: Standard Delivery boot disks
-/
namespace Atr

theorem decodes_codes (c : Chunk) (first : Bool) {as : List UInt8} {j : Nat} {L : List (Nat × Nat)} (h : Decodes as j L) :
    Decodes ((showCodes c first).1.map UInt8.ofNat ++ as) j L := by
  unfold showCodes
  split
  · split
    · exact decodes_show (Or.inr rfl) h
    · split
      · split
        · exact h
        · exact decodes_show (Or.inl rfl) h
      · exact h
  · exact h

theorem decodes_pages (c : Chunk) (first : Bool) (hp : ∀ p ∈ (chunkPages c first).1, loadable p = true) {as : List UInt8} {j : Nat}
    {L : List (Nat × Nat)} (h : Decodes as (j + (chunkPages c first).1.length) L) :
    Decodes ((chunkPages c first).2.map UInt8.ofNat ++ as) j
      ((chunkPages c first).1.zip (List.range' j (chunkPages c first).1.length) ++ L) := by
  unfold chunkPages at hp h ⊢
  simp only at hp h ⊢
  split at h
  · rename_i h0
    rw [if_pos h0] at hp ⊢
    exact decodes_plain hgrPages hp h
  · rename_i h0
    rw [if_neg h0] at hp ⊢
    split at h
    · rename_i h1
      rw [if_pos h1] at hp ⊢
      simp only [List.length_range'] at h ⊢
      exact decodes_runs _ _ hp h
    · rename_i h1
      rw [if_neg h1] at hp ⊢
      exact decodes_plain _ hp h

theorem decodes_addrs : ∀ (cs : List Chunk) (first : Bool) (j : Nat) {as : List UInt8}, (∀ x ∈ items first cs, loadable x.1 = true) →
    (∀ j, Decodes as j []) → Decodes ((addrList first cs).map UInt8.ofNat ++ as) j
      (((items first cs).map (·.1)).zip (List.range' j (items first cs).length)) := by
  intro cs
  induction cs with
  | nil => intro first j as _ h; exact h j
  | cons c cs ih =>
    intro first j as hp h
    simp only [addrList, items, List.map_append, List.append_assoc, List.length_append, List.length_map, List.map_map]
    have hid : ((fun x : Nat × Bytes => x.1) ∘ chunkPage c) = id := rfl
    rw [hid, List.map_id, ← List.range'_append_1, List.zip_append (by simp)]
    refine decodes_pages c first (fun p hm => hp (chunkPage c p) ?_) (decodes_codes c first (ih _ _ (fun x hx => hp x ?_) h))
    · simp only [items, List.mem_append]; exact Or.inl (List.mem_map_of_mem hm)
    · simp only [items, List.mem_append]; exact Or.inr hx

theorem fstbt_length : fstbtCode.length = 133 := by decide +kernel

theorem splice_pad (pre v : Bytes) (n m : Nat) (hn : pre.length = n) :
    splice (pre ++ List.replicate m 0) n v = pre ++ v ++ List.replicate (m - v.length) 0 := by
  unfold splice
  rw [List.take_append_of_le_length (by omega), List.take_of_length_le (by omega), List.drop_append, List.drop_of_length_le (by omega),
    List.nil_append, List.drop_replicate]
  congr 2; omega

theorem bootSector_ok {addrs : List Nat} {run : Nat} (h : addrs.length ≤ 120) : bootSector addrs run =
    .ok (fstbtCode ++ [UInt8.ofNat run, UInt8.ofNat (run / 256)] ++ (addrs ++ [0xc0]).map UInt8.ofNat ++ List.replicate (120 - addrs.length) 0) := by
  have hmod : UInt8.ofNat (run % 256) = UInt8.ofNat run := by
    apply UInt8.toNat_inj.mp; simp
  have e1 : splice (List.replicate 256 (0 : UInt8)) 0 fstbtCode = fstbtCode ++ List.replicate 123 0 := by
    have := splice_pad [] fstbtCode 0 256 rfl
    rw [fstbt_length, List.nil_append, List.nil_append] at this
    exact this
  have e2 := splice_pad fstbtCode [UInt8.ofNat run, UInt8.ofNat (run / 256)] 133 123 fstbt_length
  unfold bootSector
  simp only
  rw [fstbt_length, hmod, e1, e2]
  have hl : ((addrs ++ [0xc0]).map UInt8.ofNat).length = addrs.length + 1 := by simp
  have hd : (fstbtCode ++ [UInt8.ofNat run, UInt8.ofNat (run / 256)]).length = 135 := by rw [List.length_append, fstbt_length]; rfl
  generalize fstbtCode ++ [UInt8.ofNat run, UInt8.ofNat (run / 256)] = pre at hd ⊢
  unfold assignSlice
  simp only
  rw [if_pos]
  · rw [splice_pad pre _ (133 + 2) _ hd, hl]
    congr 3
    show 123 - 2 - (addrs.length + 1) = 120 - addrs.length
    omega
  · rw [List.length_append, List.length_replicate, hl, hd]
    show addrs.length + 1 = min (133 + 2 + (addrs.length + 1)) (135 + (123 - 2)) - min (133 + 2) (135 + (123 - 2))
    omega

theorem bootSector_fails {addrs : List Nat} {run : Nat} (h : 120 < addrs.length) : bootSector addrs run = .error .valueError := by
  have hl : ((addrs ++ [0xc0]).map UInt8.ofNat).length = addrs.length + 1 := by simp
  have hlen : (splice (splice (List.replicate 256 (0 : UInt8)) 0 fstbtCode) 133 [UInt8.ofNat (run % 256), UInt8.ofNat (run / 256)]).length = 256 := by
    rw [length_splice, length_splice, List.length_replicate]
    · rw [fstbt_length, List.length_replicate]; omega
    · rw [length_splice, List.length_replicate]
      · show 133 + 2 ≤ 256; omega
      · rw [fstbt_length, List.length_replicate]; omega
  unfold bootSector
  simp only
  rw [fstbt_length]
  unfold assignSlice
  simp only
  rw [hlen, hl, if_neg (by omega), if_neg (by omega)]

/-- the jump target: the given address, or the origin of the first segment -/
def jumpTarget (segs : List Seg) (runAddr : Option Nat) : Option Nat :=
  match runAddr with
  | some a => some a
  | none => segs.head?.map (·.origin)

/-- pages of all segments in order -/
def allPages (segs : List Seg) : List (Nat × Bytes) := segs.flatMap fun s => segPages s.origin s.data

theorem blank_dsk (s : Nat) (h : s < 560) : dskSector (List.replicate 143360 (0 : UInt8)) s = List.replicate 256 0 := by
  unfold dskSector slice
  rw [List.take_replicate, List.drop_replicate]
  congr 1; omega

theorem createDelivery_eq {segs : List Seg} {runAddr : Option Nat} {run : Nat} (hr : jumpTarget segs runAddr = some run) :
    ∃ z : Bytes, z.length = 143360 ∧ (∀ s, s < 560 → dskSector z s = List.replicate 256 0) ∧
    createDelivery segs runAddr = match bootSector (0xd1 :: addrList true (segs.map mkChunk)) run with
      | .error e => .error e
      | .ok boot => writeDelivery ({ num := 0, size := 256, data := boot } :: mkSecs 1 (items true (segs.map mkChunk))) z := by
  have hloop : deliveryLoop 1 0 true (segs.map mkChunk) = (mkSecs 1 (items true (segs.map mkChunk)), addrList true (segs.map mkChunk)) :=
    deliveryLoop_eq (segs.map mkChunk) 1 true
  refine ⟨List.replicate 143360 0, List.length_replicate, blank_dsk, ?_⟩
  unfold createDelivery
  generalize List.replicate 143360 (0 : UInt8) = z
  cases runAddr with
  | some a =>
    simp only [jumpTarget, Option.some.injEq] at hr
    subst hr
    simp only [hloop]
    cases bootSector (0xd1 :: addrList true (segs.map mkChunk)) a <;> rfl
  | none =>
    cases segs with
    | nil => cases hr
    | cons s segs =>
      simp only [jumpTarget, List.head?_cons, Option.map_some, Option.some.injEq] at hr
      subst hr
      simp only [hloop]
      cases bootSector (0xd1 :: addrList true (List.map mkChunk (s :: segs))) s.origin <;> rfl

/-- everything about a disk that was built -/
theorem delivery_built {segs : List Seg} {runAddr : Option Nat} {run : Nat} (hr : jumpTarget segs runAddr = some run)
    (ha : (addrList true (segs.map mkChunk)).length ≤ 119) (hn : (allPages segs).length ≤ 559) :
    ∃ b, createDelivery segs runAddr = .ok b ∧ b.length = 143360 ∧
      dskSector b 0 = fstbtCode ++ [UInt8.ofNat run, UInt8.ofNat (run / 256)] ++
        ((0xd1 :: addrList true (segs.map mkChunk)) ++ [0xc0]).map UInt8.ofNat ++
        List.replicate (119 - (addrList true (segs.map mkChunk)).length) 0 ∧
      (∀ k x, (items true (segs.map mkChunk))[k]? = some x → dskSector b (visited (1 + k)) = x.2) ∧
      (∀ j, (allPages segs).length < j → j < 560 → dskSector b (visited j) = List.replicate 256 0) := by
  have hperm := items_perm segs true
  have hlen : (items true (segs.map mkChunk)).length = (allPages segs).length := hperm.length_eq
  have h256 := items_length segs true
  have hbs := bootSector_ok (addrs := 0xd1 :: addrList true (segs.map mkChunk)) (run := run) (by rw [List.length_cons]; omega)
  obtain ⟨z, hz, hzs, heq⟩ := createDelivery_eq hr
  rw [heq, hbs]
  simp only [List.length_cons]
  rw [show 120 - ((addrList true (segs.map mkChunk)).length + 1) = 119 - (addrList true (segs.map mkChunk)).length by omega]
  have hbl : (fstbtCode ++ [UInt8.ofNat run, UInt8.ofNat (run / 256)] ++ ((0xd1 :: addrList true (segs.map mkChunk)) ++ [0xc0]).map UInt8.ofNat ++
        List.replicate (119 - (addrList true (segs.map mkChunk)).length) 0).length = 256 := by
    simp only [List.length_append, List.length_map, List.length_cons, List.length_nil, List.length_replicate, fstbt_length]
    omega
  generalize fstbtCode ++ [UInt8.ofNat run, UInt8.ofNat (run / 256)] ++ ((0xd1 :: addrList true (segs.map mkChunk)) ++ [0xc0]).map UInt8.ofNat ++
        List.replicate (119 - (addrList true (segs.map mkChunk)).length) 0 = boot at hbl ⊢
  have hfit : 0 * 256 + 256 ≤ z.length := by omega
  obtain ⟨b, w1, w2, w3, w4⟩ := write_mkSecs (items true (segs.map mkChunk)) 1 (splice z (0 * 256) boot)
    (by rw [length_splice _ _ _ (by omega)]; exact hz) h256 (by omega)
  refine ⟨b, ?_, w2, ?_, ?_, ?_⟩
  · simp only [writeDelivery]
    rw [if_pos (by omega), assign_sector hfit hbl]
    exact w1
  · rw [w4 0 (fun k hk e => ?_)]
    · exact dsk_splice_same hfit hbl
    · have : bootNum 0 = bootNum (1 + k) := e
      have := bootNum_inj this
      omega
  · intro k x hk
    rw [← bootNum_eq_visited]; exact w3 k x hk
  · intro j h1 h2
    rw [← bootNum_eq_visited, w4 _ (fun k hk e => by have := bootNum_inj e; omega), dsk_splice_other hfit hbl]
    · exact hzs _ ((bootNum_lt_iff j 35).mpr (by omega))
    · intro e
      have : bootNum j = bootNum 0 := e
      have := bootNum_inj this
      omega

/-- **C44.** Every page of every segment is in a sector of its own, in the order the loader visits the sectors: visit 0 is the
boot sector, visits 1 to n hold the n pages of the segments, the remaining sectors are empty, and no two visits are the same
sector.  Pages are in memory order segment by segment, except that a full graphics screen is permuted; so `pages` is a
permutation of the list of all pages. -/
theorem C44_every_page_once {segs : List Seg} {runAddr : Option Nat} {b : Bytes} (h : createDelivery segs runAddr = .ok b) :
    b.length = 143360 ∧ visited 0 = 0 ∧ (∀ i j, visited i = visited j → i = j) ∧
    ∃ pages : List (Nat × Bytes), List.Perm pages (allPages segs) ∧ pages.length ≤ 559 ∧
      (∀ k x, pages[k]? = some x → dskSector b (visited (k + 1)) = x.2) ∧
      (∀ j, pages.length < j → j < 560 → dskSector b (visited j) = List.replicate 256 0) := by
  cases hr : jumpTarget segs runAddr with
  | none =>
    cases runAddr with
    | some a => cases hr
    | none =>
      cases segs with
      | nil => cases h
      | cons => cases hr
  | some run =>
    have hlen : (items true (segs.map mkChunk)).length = (allPages segs).length := (items_perm segs true).length_eq
    by_cases ha : (addrList true (segs.map mkChunk)).length ≤ 119
    · by_cases hn : (allPages segs).length ≤ 559
      · obtain ⟨b', h1, h2, _, h4, h5⟩ := delivery_built hr ha hn
        rw [h] at h1
        injection h1 with h1
        subst h1
        refine ⟨h2, rfl, fun i j e => bootNum_inj (by rw [bootNum_eq_visited, bootNum_eq_visited, e]), items true (segs.map mkChunk),
          items_perm segs true, by omega, ?_, ?_⟩
        · intro k x hk
          rw [show k + 1 = 1 + k by omega]; exact h4 k x hk
        · intro j; rw [hlen]; exact h5 j
      · exfalso
        obtain ⟨z, hz, _, heq⟩ := createDelivery_eq hr
        rw [heq, bootSector_ok (by rw [List.length_cons]; omega)] at h
        simp only [writeDelivery] at h
        rw [if_pos (by omega)] at h
        rw [assign_sector (n := 0) (by omega) (by
          simp only [List.length_append, List.length_map, List.length_cons, List.length_nil, List.length_replicate, fstbt_length]
          omega)] at h
        simp only at h
        rw [write_mkSecs_fails _ 1 _ (by
          rw [length_splice]
          · exact hz
          · simp only [List.length_append, List.length_map, List.length_cons, List.length_nil, List.length_replicate, fstbt_length]
            omega) (items_length segs true) (by omega) (by omega)] at h
        cases h
    · exfalso
      obtain ⟨z, _, _, heq⟩ := createDelivery_eq hr
      rw [heq, bootSector_fails (by rw [List.length_cons]; omega)] at h
      cases h

/-- C44: when building succeeds, exactly; otherwise it raises `IndexError` (no segment and no address), `ValueError` (address
list does not fit in the boot sector) or `NameError` (more pages than sectors). -/
theorem C44_succeeds_iff (segs : List Seg) (runAddr : Option Nat) : (∃ b, createDelivery segs runAddr = .ok b) ↔
    jumpTarget segs runAddr ≠ none ∧ (addrList true (segs.map mkChunk)).length ≤ 119 ∧ (allPages segs).length ≤ 559 := by
  constructor
  · rintro ⟨b, h⟩
    have h2 := C44_every_page_once h
    obtain ⟨_, _, _, pages, p1, p2, _⟩ := h2
    have hn : (allPages segs).length ≤ 559 := by rw [← p1.length_eq]; exact p2
    cases hr : jumpTarget segs runAddr with
    | none =>
      cases runAddr with
      | some a => cases hr
      | none =>
        cases segs with
        | nil => cases h
        | cons => cases hr
    | some run =>
      refine ⟨by simp, ?_, hn⟩
      by_cases ha : (addrList true (segs.map mkChunk)).length ≤ 119
      · exact ha
      · obtain ⟨z, _, _, heq⟩ := createDelivery_eq hr
        rw [heq, bootSector_fails (by rw [List.length_cons]; omega)] at h
        cases h
  · rintro ⟨h1, h2, h3⟩
    cases hr : jumpTarget segs runAddr with
    | none => exact absurd hr h1
    | some run =>
      obtain ⟨b, hb, _⟩ := delivery_built hr h2 h3
      exact ⟨b, hb⟩

/-- room needed in the address list for a segment of `k` pages starting at page `start` -/
def listRoom (start k : Nat) : Nat := (if start = 0x20 ∧ k = 32 then 32 else 2 * ((k + 31) / 32)) + 1

theorem runs_length (n : Nat) : ∀ p, ((chunks 32 (List.range' p n)).flatMap pageRun).length ≤ 2 * ((n + 31) / 32) := by
  induction n using Nat.strongRecOn with
  | _ n ih =>
    intro p
    by_cases h0 : n = 0
    · subst h0; simp
    · have hne : List.range' p n ≠ [] := by
        intro e; have := congrArg List.length e; simp at this; omega
      have hrun : ∀ l : List Nat, (pageRun l).length ≤ 2 := by
        intro l
        unfold pageRun
        split
        · simp
        · split
          · simp
          · omega
      rw [chunks_cons 32 (by omega) _ hne, List.flatMap_cons, List.length_append]
      have := hrun ((List.range' p n).take 32)
      by_cases h32 : n ≤ 32
      · rw [List.drop_of_length_le (by simp; omega), chunks_nil, List.flatMap_nil, List.length_nil]
        omega
      · have hd : (List.range' p n).drop 32 = List.range' (p + 32) (n - 32) := by
          rw [range'_split p 32 n (by omega), List.drop_append_of_le_length (by simp), List.drop_of_length_le (by simp), List.nil_append]
        rw [hd]
        have := ih (n - 32) (by omega) (p + 32)
        omega

theorem addrList_length : ∀ (segs : List Seg) (first : Bool), (addrList first (segs.map mkChunk)).length ≤
    (segs.map fun s => listRoom (s.origin / 256) (pageCount s.origin s.data.length)).sum := by
  intro segs
  induction segs with
  | nil => intro first; simp [addrList]
  | cons s segs ih =>
    intro first
    simp only [List.map_cons, addrList, List.length_append, List.sum_cons]
    have h1 : (chunkPages (mkChunk s) first).2.length + 1 ≤ listRoom (s.origin / 256) (pageCount s.origin s.data.length) := by
      unfold chunkPages listRoom
      simp only
      rw [mkChunk_start, mkChunk_count]
      split
      · rename_i h
        rw [if_pos ⟨h.1, h.2.1⟩]
        simp [hgrPages]
      · split
        · rename_i h
          simp only [List.length_range'] at h
          have := runs_length (pageCount s.origin s.data.length) (s.origin / 256)
          simp only
          split <;> omega
        · rename_i h
          simp only [List.length_range'] at h ⊢
          split <;> omega
    have h2 : (showCodes (mkChunk s) first).1.length ≤ 1 := by
      unfold showCodes
      split
      · split
        · simp
        · split
          · split <;> simp
          · simp
      · simp
    have := ih (showCodes (mkChunk s) first).2
    omega

/-- **C44, enough room.** Building succeeds when the segments have at most 55a full graphics screen among them, 37 pages in total and the address list has room. -/
theorem C44_fits {segs : List Seg} {runAddr : Option Nat} (hr : segs ≠ []) (hn : (allPages segs).length ≤ 559)
    (ha : (segs.map fun s => listRoom (s.origin / 256) (pageCount s.origin s.data.length)).sum ≤ 119) :
    ∃ b, createDelivery segs runAddr = .ok b := by
  refine (C44_succeeds_iff segs runAddr).mpr ⟨?_, Nat.le_trans (addrList_length segs true) ha, hn⟩
  unfold jumpTarget
  cases runAddr with
  | some a => simp
  | none =>
    cases segs with
    | nil => exact absurd rfl hr
    | cons => simp

/-! ### booting -/

/-- memory after one page was filled -/
def putPage (mem : Nat → UInt8) (x : Nat × Bytes) : Nat → UInt8 := fun a => if a / 256 = x.1 then x.2.getD (a % 256) 0 else mem a

theorem loads_fold (b : Bytes) : ∀ (its : List (Nat × Bytes)) (j : Nat) (mem : Nat → UInt8),
    (∀ (k : Nat) (x : Nat × Bytes), its[k]? = some x → dskSector b (visited (j + k)) = x.2) →
    ((its.map (·.1)).zip (List.range' j its.length)).foldl (loadPage b) mem = its.foldl putPage mem := by
  intro its
  induction its with
  | nil => intro j mem _; rfl
  | cons x its ih =>
    intro j mem h
    rw [List.map_cons, List.length_cons, List.range'_succ, List.zip_cons_cons, List.foldl_cons, List.foldl_cons]
    have h0 := h 0 x rfl
    have e : loadPage b mem (x.1, j) = putPage mem x := by
      funext a
      unfold loadPage putPage
      simp only
      rw [← h0]
      rfl
    rw [e]
    refine ih (j + 1) _ (fun k y hk => ?_)
    rw [show j + 1 + k = j + (k + 1) by omega]
    exact h (k + 1) y (by rw [List.getElem?_cons_succ]; exact hk)

theorem put_fold (f : Nat → Bytes) (a : Nat) : ∀ (ps : List Nat) (mem : Nat → UInt8),
    (ps.map fun p => (p, f p)).foldl putPage mem a = if a / 256 ∈ ps then (f (a / 256)).getD (a % 256) 0 else mem a := by
  intro ps
  induction ps with
  | nil => intro mem; simp
  | cons p ps ih =>
    intro mem
    rw [List.map_cons, List.foldl_cons, ih]
    by_cases h : a / 256 ∈ ps
    · rw [if_pos h, if_pos (by simp [h])]
    · rw [if_neg h]
      unfold putPage
      simp only
      by_cases hp : a / 256 = p
      · rw [if_pos hp, if_pos (by simp [hp]), hp]
      · rw [if_neg hp, if_neg (by simp [hp, h])]

theorem pageBytes_getD (o : Nat) (d : Bytes) (a : Nat) :
    (pageBytes o d (a / 256)).getD (a % 256) 0 = if o ≤ a then d.getD (a - o) 0 else 0 := by
  unfold pageBytes
  rw [List.getD_eq_getElem?_getD, List.getElem?_map, List.getElem?_range (Nat.mod_lt _ (by omega)), Option.map_some, Option.getD_some]
  rw [show 256 * (a / 256) + a % 256 = a by omega]

/-- is address `a` in one of the pages of the segment? -/
def Seg.touches (s : Seg) (a : Nat) : Prop :=
  s.origin / 256 ≤ a / 256 ∧ a / 256 < s.origin / 256 + pageCount s.origin s.data.length

instance (s : Seg) (a : Nat) : Decidable (s.touches a) := by unfold Seg.touches; infer_instance

/-- the byte at `a` after all segments were loaded one after the other, each with its pages filled up with zeros -/
def memAfter (a : Nat) : List Seg → UInt8 → UInt8
  | [], v => v
  | s :: segs, v =>
    memAfter a segs (if s.touches a then (if loadAddr s.origin ≤ a then s.data.getD (a - loadAddr s.origin) 0 else 0) else v)

theorem items_fold (a : Nat) : ∀ (segs : List Seg) (first : Bool) (mem : Nat → UInt8),
    (items first (segs.map mkChunk)).foldl putPage mem a = memAfter a segs (mem a) := by
  intro segs
  induction segs with
  | nil => intro first mem; rfl
  | cons s segs ih =>
    intro first mem
    simp only [List.map_cons, items, List.foldl_append, memAfter]
    rw [ih]
    congr 1
    have hperm := chunkPages_perm (mkChunk s) first
    rw [mkChunk_start, mkChunk_count] at hperm
    have e : (chunkPages (mkChunk s) first).1.map (chunkPage (mkChunk s)) =
        (chunkPages (mkChunk s) first).1.map fun p => (p, pageBytes (loadAddr s.origin) s.data p) := by
      apply List.map_congr_left
      intro p hp
      have := hperm.mem_iff.mp hp
      rw [List.mem_range'_1] at this
      exact chunkPage_mkChunk this.1 this.2
    rw [e, put_fold (pageBytes (loadAddr s.origin) s.data), pageBytes_getD]
    have hm : a / 256 ∈ (chunkPages (mkChunk s) first).1 ↔ s.touches a := by
      rw [hperm.mem_iff, List.mem_range'_1]; rfl
    by_cases h : s.touches a
    · rw [if_pos h, if_pos (hm.mpr h)]
    · rw [if_neg h, if_neg (fun x => h (hm.mp x))]

/-- the boot sector of a disk that was built: code, address list and jump, and the sectors in the order of the pages -/
theorem delivery_list {segs : List Seg} {runAddr : Option Nat} {b : Bytes} (h : createDelivery segs runAddr = .ok b) :
    ∃ run, jumpTarget segs runAddr = some run ∧ b.length = 143360 ∧ (∃ rest, dskSector b 0 = fstbtCode ++ rest) ∧ (items true (segs.map mkChunk)).length ≤ 559 ∧
      slice (dskSector b 0) 135 256 = UInt8.ofNat 0xd1 :: ((addrList true (segs.map mkChunk)).map UInt8.ofNat ++
        (UInt8.ofNat 0xc0 :: List.replicate (119 - (addrList true (segs.map mkChunk)).length) 0)) ∧
      le16 ((dskSector b 0).getD 133 0) ((dskSector b 0).getD 134 0) = run % 65536 ∧
      (∀ k x, (items true (segs.map mkChunk))[k]? = some x → dskSector b (visited (1 + k)) = x.2) := by
  obtain ⟨h1, h2, h3⟩ := (C44_succeeds_iff segs runAddr).mp ⟨b, h⟩
  cases hr : jumpTarget segs runAddr with
  | none => exact absurd hr h1
  | some run =>
    obtain ⟨b', hb, hblen, hboot, hsec, _⟩ := delivery_built hr h2 h3
    rw [h] at hb
    injection hb with hb
    subst hb
    have hlist : slice (dskSector b 0) 135 256 = UInt8.ofNat 0xd1 :: ((addrList true (segs.map mkChunk)).map UInt8.ofNat ++
        (UInt8.ofNat 0xc0 :: List.replicate (119 - (addrList true (segs.map mkChunk)).length) 0)) := by
      have hp : (fstbtCode ++ [UInt8.ofNat run, UInt8.ofNat (run / 256)]).length = 135 := by rw [List.length_append, fstbt_length]; rfl
      rw [hboot]
      generalize fstbtCode ++ [UInt8.ofNat run, UInt8.ofNat (run / 256)] = pre at hp ⊢
      unfold slice
      rw [List.take_of_length_le (by
        simp only [List.length_append, List.length_map, List.length_cons, List.length_nil, List.length_replicate]; omega)]
      rw [List.append_assoc, List.drop_append, List.drop_of_length_le (by omega), List.nil_append, hp]
      simp
    have hjump : le16 ((dskSector b 0).getD 133 0) ((dskSector b 0).getD 134 0) = run % 65536 := by
      rw [hboot, List.append_assoc, List.append_assoc]
      have g : ∀ i, (fstbtCode ++ ([UInt8.ofNat run, UInt8.ofNat (run / 256)] ++ (((0xd1 :: addrList true (segs.map mkChunk)) ++ [0xc0]).map UInt8.ofNat ++
        List.replicate (119 - (addrList true (segs.map mkChunk)).length) 0))).getD (133 + i) 0 = ([UInt8.ofNat run, UInt8.ofNat (run / 256)] ++ (((0xd1 :: addrList true (segs.map mkChunk)) ++ [0xc0]).map UInt8.ofNat ++
        List.replicate (119 - (addrList true (segs.map mkChunk)).length) 0)).getD i 0 := by
        intro i
        rw [List.getD_eq_getElem?_getD, List.getD_eq_getElem?_getD, List.getElem?_append_right (by rw [fstbt_length]; omega), fstbt_length,
          show 133 + i - 133 = i by omega]
      have g0 := g 0
      have g1 := g 1
      rw [show 133 + 0 = 133 from rfl] at g0
      rw [show 133 + 1 = 134 from rfl] at g1
      rw [g0, g1]
      exact le16_enc run
    refine ⟨run, rfl, hblen, ⟨_, by rw [hboot, List.append_assoc, List.append_assoc]⟩, ?_, hlist, hjump, hsec⟩
    rw [(items_perm segs true).length_eq]; exact h3

/-- the address list of a disk that was built, and the loads it stands for -/
theorem delivery_loads {segs : List Seg} {runAddr : Option Nat} {b : Bytes} (h : createDelivery segs runAddr = .ok b)
    (hl : ∀ x ∈ allPages segs, loadable x.1 = true) : ∃ run, jumpTarget segs runAddr = some run ∧ b.length = 143360 ∧
      (∃ rest, dskSector b 0 = fstbtCode ++ rest) ∧ (items true (segs.map mkChunk)).length ≤ 559 ∧
      runLoader (slice (dskSector b 0) 135 256) 0 1 =
        some (((items true (segs.map mkChunk)).map (·.1)).zip (List.range' 1 (items true (segs.map mkChunk)).length)) ∧
      le16 ((dskSector b 0).getD 133 0) ((dskSector b 0).getD 134 0) = run % 65536 ∧
      (∀ k x, (items true (segs.map mkChunk))[k]? = some x → dskSector b (visited (1 + k)) = x.2) := by
  obtain ⟨run, h1, h2, h3, h4, h5, h6, h7⟩ := delivery_list h
  have hd := decodes_addrs (segs.map mkChunk) true 1 (as := UInt8.ofNat 0xc0 :: List.replicate (119 - (addrList true (segs.map mkChunk)).length) 0)
    (fun x hx => hl x ((items_perm segs true).mem_iff.mp hx)) (fun j => decodes_end _ j)
  exact ⟨run, h1, h2, h3, h4, by rw [h5, decodes_show (Or.inl rfl) hd 0], h6, h7⟩

/-- **C56.** Booting the disk: whatever is in memory, the loader runs to its end, fills exactly the pages of the segments in
order, and jumps to the given address (or the origin of the first segment). -/
theorem C56_boot {segs : List Seg} {runAddr : Option Nat} {b : Bytes} (h : createDelivery segs runAddr = .ok b)
    (hl : ∀ x ∈ allPages segs, loadable x.1 = true) (mem0 : Nat → UInt8) :
    ∃ mem run, jumpTarget segs runAddr = some run ∧ bootDisk b mem0 = some (mem, run % 65536) ∧ ∀ a, mem a = memAfter a segs (mem0 a) := by
  obtain ⟨run, h1, _, _, _, h2, h3, h4⟩ := delivery_loads h hl
  refine ⟨(items true (segs.map mkChunk)).foldl putPage mem0, run, h1, ?_, ?_⟩
  · unfold bootDisk
    rw [h2]
    simp only
    rw [h3, loads_fold b _ 1 mem0 h4]
  · intro a
    exact items_fold a segs true mem0

theorem memAfter_untouched {a : Nat} : ∀ {segs : List Seg} {v : UInt8}, (∀ s ∈ segs, ¬ s.touches a) → memAfter a segs v = v := by
  intro segs
  induction segs with
  | nil => intro v _; rfl
  | cons s segs ih =>
    intro v h
    simp only [memAfter]
    rw [if_neg (h s (by simp))]
    exact ih (fun t ht => h t (by simp [ht]))

theorem touches_own {s : Seg} {i : Nat} (h : i < s.data.length) : s.touches (loadAddr s.origin + i) := by
  have := loadAddr_page s.origin
  unfold Seg.touches pageCount
  omega

/-- **C56, contents.** When no two segments share a page, every byte of every segment is at its place after booting; every
address outside the pages of the segments is as it was. -/
theorem C56_contents_partial {segs : List Seg} {runAddr : Option Nat} {b : Bytes} (h : createDelivery segs runAddr = .ok b)
    (hl : ∀ x ∈ allPages segs, loadable x.1 = true) (hd : segs.Pairwise fun s t => ∀ a, ¬ (s.touches a ∧ t.touches a)) (mem0 : Nat → UInt8) :
    ∃ mem run, jumpTarget segs runAddr = some run ∧ bootDisk b mem0 = some (mem, run % 65536) ∧
      (∀ s ∈ segs, ∀ i (hi : i < s.data.length), mem (loadAddr s.origin + i) = s.data[i]) ∧
      (∀ a, (∀ s ∈ segs, ¬ s.touches a) → mem a = mem0 a) := by
  obtain ⟨mem, run, h1, h2, h3⟩ := C56_boot h hl mem0
  refine ⟨mem, run, h1, h2, ?_, fun a ha => by rw [h3, memAfter_untouched ha]⟩
  intro s hs i hi
  rw [h3]
  clear h h1 h2 h3 hl
  generalize mem0 (loadAddr s.origin + i) = v
  induction segs generalizing v with
  | nil => cases hs
  | cons t segs ih =>
    rw [List.pairwise_cons] at hd
    simp only [memAfter]
    rcases List.mem_cons.mp hs with rfl | hs
    · rw [memAfter_untouched (fun u hu ht => hd.1 u hu _ ⟨touches_own hi, ht⟩), if_pos (touches_own hi), if_pos (by omega),
        show loadAddr s.origin + i - loadAddr s.origin = i by omega, List.getD_eq_getElem?_getD, List.getElem?_eq_getElem hi]
      rfl
    · exact ih hd.2 hs _

/-- **C56 is false** without that condition: of two segments that share a page the second one erases the first. -/
theorem C56_refuted_shared_page : ∃ b, createDelivery [⟨0x1000, [1]⟩, ⟨0x1001, [2]⟩] none = .ok b ∧
    ∃ mem run, bootDisk b (fun _ => 0xff) = some (mem, run) ∧ mem 0x1000 = 0 ∧ mem 0x1001 = 2 := by
  obtain ⟨b, hb⟩ := C44_fits (segs := [⟨0x1000, [1]⟩, ⟨0x1001, [2]⟩]) (runAddr := none) (by simp) (by decide) (by decide)
  obtain ⟨mem, run, _, h2, h3⟩ := C56_boot hb (by decide) (fun _ => 0xff)
  refine ⟨b, hb, mem, _, h2, ?_, ?_⟩
  · rw [h3]; decide
  · rw [h3]; decide

/-- **C56 is false** for data at 0x2001 or 0x4001: it is loaded one byte lower. -/
theorem C56_refuted_hgr : ∃ b, createDelivery [⟨0x2001, [7, 8]⟩] none = .ok b ∧
    ∃ mem run, bootDisk b (fun _ => 0xff) = some (mem, run) ∧ mem 0x2000 = 7 ∧ mem 0x2001 = 8 := by
  obtain ⟨b, hb⟩ := C44_fits (segs := [⟨0x2001, [7, 8]⟩]) (runAddr := none) (by simp) (by decide) (by decide)
  obtain ⟨mem, run, _, h2, h3⟩ := C56_boot hb (by decide) (fun _ => 0xff)
  refine ⟨b, hb, mem, _, h2, ?_, ?_⟩
  · rw [h3]; decide
  · rw [h3]; decide

theorem allPages_loadable {segs : List Seg}
    (h : ∀ s ∈ segs, ∀ p ∈ List.range' (s.origin / 256) (pageCount s.origin s.data.length), loadable p = true) :
    ∀ x ∈ allPages segs, loadable x.1 = true := by
  intro x hx
  unfold allPages segPages at hx
  rw [List.mem_flatMap] at hx
  obtain ⟨s, hs, hx⟩ := hx
  rw [List.mem_map] at hx
  obtain ⟨p, hp, rfl⟩ := hx
  exact h s hs p hp

/-- a program in three parts, a full graphics screen among them, 37 pages -/
def sampleDelivery : List Seg := [⟨0x2000, List.replicate 8192 0x55⟩, ⟨0x6010, List.replicate 800 0xea⟩, ⟨0x4000, [0x60]⟩]

/-- a concrete case: the disk is built, its pages are loadable and disjoint -/
example : ∃ b, createDelivery sampleDelivery none = .ok b ∧ ∃ mem, bootDisk b (fun _ => 0) = some (mem, 0x2000) ∧ mem 0x6010 = 0xea ∧
    mem 0x2abc = 0x55 ∧ mem 0x4000 = 0x60 := by
  obtain ⟨b, hb⟩ := C44_fits (segs := sampleDelivery) (runAddr := none) (by decide +kernel) (by decide +kernel) (by decide +kernel)
  obtain ⟨mem, run, h1, h2, h3⟩ := C56_boot hb (allPages_loadable (by decide +kernel)) (fun _ => 0)
  have h0 : jumpTarget sampleDelivery none = some 0x2000 := by decide +kernel
  rw [h0] at h1
  injection h1 with h1
  subst h1
  refine ⟨b, hb, mem, h2, ?_, ?_, ?_⟩
  · rw [h3]; decide +kernel
  · rw [h3]; decide +kernel
  · rw [h3]; decide +kernel

end Atr
