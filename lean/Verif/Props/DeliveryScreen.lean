import Verif.Props.DeliveryRun
/-!
# C118: the pictures an Apple ][ shows while it reads a Standard Delivery disk
-/
namespace Atr

/-- the pictures of the segments, in order -/
def pictures (segs : List Seg) : List UInt8 := segs.filterMap fun s => pictureAt s.origin

/-- the graphics page with the picture loaded last; page 1 before the first -/
def lastPicture (segs : List Seg) : UInt8 := (pictures segs).getLast?.getD 0

theorem pictureAt_or {o : Nat} {v : UInt8} (h : pictureAt o = some v) : v = 0 ∨ v = 1 := by
  unfold pictureAt at h
  split at h
  · cases h
  · split at h
    · exact Or.inl (Option.some.inj h).symm
    · split at h
      · exact Or.inr (Option.some.inj h).symm
      · cases h

theorem pictures_or {segs : List Seg} : ∀ v ∈ pictures segs, v = 0 ∨ v = 1 := by
  intro v hv
  obtain ⟨s, _, hs⟩ := List.mem_filterMap.mp hv
  exact pictureAt_or hs

/-- the page on the screen after some pictures, as the code has it: the first picture on page 1 does not change it -/
def displayed : Bool → UInt8 → List UInt8 → UInt8
  | _, v, [] => v
  | first, v, p :: ps => if p = 1 then displayed first 1 ps else displayed false (if first then v else 0) ps

theorem showCodes_picture (s : Seg) (first : Bool) : showCodes (mkChunk s) first =
    match pictureAt s.origin with
    | none => ([], first)
    | some v => if v = 1 then ([0xd2], first) else (if first then [] else [0xd1], false) := by
  unfold showCodes pictureAt mkChunk
  simp only
  by_cases h : s.origin = 0x2001 ∨ s.origin = 0x4001
  · rw [if_pos h]
    have e : ((s.origin / 256 == 0x20 || s.origin / 256 == 0x40) && s.origin % 256 == 1) = true := by
      rcases h with h | h <;> rw [h] <;> decide
    rw [e]
    rfl
  · rw [if_neg h]
    have e : ((s.origin / 256 == 0x20 || s.origin / 256 == 0x40) && s.origin % 256 == 1) = false := by
      rw [Bool.eq_false_iff]
      intro h2
      simp only [Bool.and_eq_true, Bool.or_eq_true, beq_iff_eq] at h2
      omega
    rw [e, Bool.not_false, if_pos rfl]
    by_cases h2 : s.origin / 256 = 0x20
    · rw [if_neg (by omega), if_pos h2, if_pos h2]
      rfl
    · rw [if_neg h2, if_neg h2]
      by_cases h4 : s.origin / 256 = 0x40
      · rw [if_pos h4, if_pos h4]
        rfl
      · rw [if_neg h4, if_neg h4]

theorem chunkPages_entries {c : Chunk} {first : Bool} {x : Nat} (hx : x ∈ (chunkPages c first).2) : x ∈ (chunkPages c first).1 ∨ (0xe0 ≤ x ∧ x < 256) := by
  unfold chunkPages at hx ⊢
  simp only at hx ⊢
  split
  · rename_i h; rw [if_pos h] at hx; exact Or.inl hx
  · rename_i h
    rw [if_neg h] at hx
    split
    · rename_i h1
      rw [if_pos h1] at hx
      simp only at hx ⊢
      generalize List.range' c.start (c.data.length / 256) = hi at hx
      obtain ⟨g, hg, hx⟩ := List.mem_flatMap.mp hx
      have hsub : ∀ y ∈ g, y ∈ hi := by
        intro y hy
        rw [← chunks_flatten 32 (by omega) hi]
        exact List.mem_flatten.mpr ⟨g, hg, hy⟩
      have hlen := mem_chunks_length 32 (by omega) hi g hg
      cases g with
      | nil => cases hx
      | cons p ps =>
        simp only [pageRun] at hx
        split at hx
        · simp only [List.mem_cons, List.not_mem_nil, or_false] at hx
          rcases hx with rfl | rfl
          · exact Or.inl (hsub _ List.mem_cons_self)
          · refine Or.inr ?_
            simp only [List.length_cons] at *
            omega
        · exact Or.inl (hsub _ hx)
    · rename_i h1
      rw [if_neg h1] at hx
      exact Or.inl hx

/-- pages of a segment neither end the list nor change the screen -/
theorem chunkPages_quiet {c : Chunk} {first : Bool} (hl : ∀ p ∈ (chunkPages c first).1, loadable p = true) {a : UInt8} (ha : a ∈ (chunkPages c first).2.map UInt8.ofNat) :
    a.toNat ≠ 0xc0 ∧ a.toNat ≠ 0xd1 ∧ a.toNat ≠ 0xd2 := by
  obtain ⟨x, hx, rfl⟩ := List.mem_map.mp ha
  rw [toNat_ofNat]
  rcases chunkPages_entries hx with h | h
  · have := loadable_lt (hl x h)
    omega
  · omega

theorem quiet_fold : ∀ (as : List UInt8) (v : UInt8), (∀ a ∈ as, a.toNat ≠ 0xd1 ∧ a.toNat ≠ 0xd2) → as.foldl showEntry v = v
  | [], _, _ => rfl
  | a :: as, v, h => by
    rw [List.foldl_cons, showEntry_other (h a List.mem_cons_self).1 (h a List.mem_cons_self).2]
    exact quiet_fold as v fun x hx => h x (List.mem_cons_of_mem _ hx)

/-- the entries for some segments: not the end of the list, and what they leave on the screen -/
theorem addrList_shows : ∀ (segs : List Seg) (first : Bool) (v : UInt8), (∀ x ∈ items first (segs.map mkChunk), loadable x.1 = true) →
    (∀ a ∈ (addrList first (segs.map mkChunk)).map UInt8.ofNat, a.toNat ≠ 0xc0) ∧
    ((addrList first (segs.map mkChunk)).map UInt8.ofNat).foldl showEntry v = displayed first v (pictures segs) := by
  intro segs
  induction segs with
  | nil => intro first v _; exact ⟨(fun a ha => nomatch ha), rfl⟩
  | cons s segs ih =>
    intro first v h
    have hpages : ∀ p ∈ (chunkPages (mkChunk s) first).1, loadable p = true := by
      intro p hp
      refine h (chunkPage (mkChunk s) p) ?_
      simp only [List.map_cons, items, List.mem_append]
      exact Or.inl (List.mem_map_of_mem hp)
    have hrest : ∀ x ∈ items (showCodes (mkChunk s) first).2 (segs.map mkChunk), loadable x.1 = true := by
      intro x hx
      refine h x ?_
      simp only [List.map_cons, items, List.mem_append]
      exact Or.inr hx
    have hq := fun a ha => chunkPages_quiet hpages (a := a) ha
    have e1 := fun v => (ih _ v hrest).2
    have e2 := (ih _ v hrest).1
    simp only [List.map_cons, addrList, List.map_append, List.foldl_append]
    rw [quiet_fold _ v fun a ha => (hq a ha).2, e1]
    have hc := showCodes_picture s first
    constructor
    · intro a ha
      rw [List.mem_append, List.mem_append] at ha
      rcases ha with (ha | ha) | ha
      · exact (hq a ha).1
      · rw [hc] at ha
        split at ha
        · cases ha
        · split at ha
          · simp only [List.map_cons, List.map_nil, List.mem_singleton] at ha
            rw [ha]; decide
          · simp only at ha
            split at ha
            · cases ha
            · simp only [List.map_cons, List.map_nil, List.mem_singleton] at ha
              rw [ha]; decide
      · exact e2 a ha
    · rw [hc]
      unfold pictures
      rw [List.filterMap_cons]
      cases hp : pictureAt s.origin with
      | none => rfl
      | some w =>
        simp only [displayed]
        by_cases hw : w = 1
        · rw [if_pos hw, if_pos hw]
          rfl
        · rw [if_neg hw, if_neg hw]
          cases first <;> rfl

theorem addrs_append : ∀ (cs ds : List Chunk) (first : Bool), ∃ f, addrList first (cs ++ ds) = addrList first cs ++ addrList f ds ∧
    items first (cs ++ ds) = items first cs ++ items f ds := by
  intro cs
  induction cs with
  | nil => intro ds first; exact ⟨first, rfl, rfl⟩
  | cons c cs ih =>
    intro ds first
    obtain ⟨f, h1, h2⟩ := ih ds (showCodes c first).2
    refine ⟨f, ?_, ?_⟩
    · simp only [List.cons_append, addrList, h1, List.append_assoc]
    · simp only [List.cons_append, items, h2, List.append_assoc]

/-! ### what is displayed, in terms of the pictures -/

theorem displayed_false : ∀ (ps : List UInt8) (v : UInt8), (∀ p ∈ ps, p = 0 ∨ p = 1) → displayed false v ps = ps.getLast?.getD v
  | [], _, _ => rfl
  | p :: ps, v, h => by
    have ih := fun w => displayed_false ps w fun x hx => h x (List.mem_cons_of_mem _ hx)
    have e : ∀ w : UInt8, ps.getLast?.getD w = (w :: ps).getLast?.getD v := fun w => by
      rw [List.getLast?_cons]; rfl
    simp only [displayed]
    rcases h p List.mem_cons_self with rfl | rfl
    · rw [if_neg (by decide), ih, ← e]; rfl
    · rw [if_pos rfl, ih, ← e]

theorem displayed_ones (first : Bool) (ps : List UInt8) : ∀ (n : Nat) (v : UInt8), displayed first v (List.replicate n 1 ++ ps) = displayed first (if n = 0 then v else 1) ps
  | 0, _ => rfl
  | n + 1, v => by
    rw [List.replicate_succ, List.cons_append]
    simp only [displayed]
    rw [if_pos trivial, displayed_ones first ps n 1, ite_self, if_neg (by omega)]

theorem ones_of {ps : List UInt8} (h : ∀ p ∈ ps, p = 0 ∨ p = 1) (h0 : (0 : UInt8) ∉ ps) : ps = List.replicate ps.length 1 :=
  List.eq_replicate_iff.mpr ⟨rfl, fun p hp => (h p hp).resolve_left fun e => h0 (e ▸ hp)⟩

/-- the screen shows the last picture, unless this is the first one on page 1 and others on page 2 came before -/
theorem displayed_last {ps : List UInt8} (h : ∀ p ∈ ps, p = 0 ∨ p = 1) (hn : ¬ ∃ n, ps = List.replicate (n + 1) 1 ++ [0]) : displayed true 0 ps = ps.getLast?.getD 0 := by
  by_cases h0 : (0 : UInt8) ∈ ps
  · obtain ⟨as, bs, rfl, h1⟩ := List.eq_append_cons_of_mem h0
    have ha := ones_of (fun p hp => h p (List.mem_append_left _ hp)) h1
    have hb : ∀ p ∈ bs, p = 0 ∨ p = 1 := fun p hp => h p (List.mem_append_right _ (List.mem_cons_of_mem _ hp))
    rw [List.getLast?_append, List.getLast?_cons]
    rw [ha, displayed_ones]
    simp only [displayed]
    rw [if_neg (by decide), if_pos trivial, displayed_false bs _ hb]
    cases hbs : bs.getLast? with
    | some x => rfl
    | none =>
      have hbn : bs = [] := List.getLast?_eq_none_iff.mp hbs
      subst hbn
      cases as with
      | nil => rfl
      | cons a as => exact absurd ⟨as.length, by rw [ha, List.length_cons]⟩ hn
  · have ha := ones_of h h0
    rw [ha]
    have := displayed_ones true [] ps.length 0
    rw [List.append_nil] at this
    rw [this, List.getLast?_replicate]
    simp only [displayed]
    split <;> rfl

theorem displayed_wrong (n : Nat) : displayed true 0 (List.replicate (n + 1) 1 ++ [0]) = 1 := by
  rw [displayed_ones, if_neg (by omega)]
  simp only [displayed]
  rw [if_neg (by decide), if_pos trivial]

/-- between two segments: what is in memory and on the screen, and how the program is reached from there -/
theorem delivery_screen {pre post : List Seg} {runAddr : Option Nat} {b : Bytes} (h : createDelivery (pre ++ post) runAddr = .ok b)
    (hl : ∀ x ∈ allPages (pre ++ post), loadable x.1 = true) {A : Apple} (hA : A.slot < 8) (hd : A.disk = dskDisk b) {c : Cpu} (hc : AppleBooted A c) (hs : 6 ≤ c.s.toNat) :
    ∃ m hm e he run, A.Runs (c, 0) (m, hm) ∧ A.Runs (m, hm) (e, he) ∧ jumpTarget (pre ++ post) runAddr = some run ∧ e.pc = run % 65536 ∧
      (∀ p, loadable (p / 256) = true → m.mem p = memAfter p pre (c.mem p)) ∧ ShowsHires m.mem (displayed true 0 (pictures pre)) ∧
      (∀ p, loadable (p / 256) = true → e.mem p = memAfter p (pre ++ post) (c.mem p)) ∧ ShowsHires e.mem (displayed true 0 (pictures (pre ++ post))) := by
  obtain ⟨run, h1, h2, ⟨rest, h3⟩, h4, h5, h6, h7⟩ := delivery_list h
  obtain ⟨_, _, _, _, _, h8, _, _⟩ := delivery_loads h hl
  have hitems : ∀ x ∈ items true ((pre ++ post).map mkChunk), loadable x.1 = true := fun x hx => hl x ((items_perm _ true).mem_iff.mp hx)
  obtain ⟨hno, hshow⟩ := addrList_shows (pre ++ post) true 0 hitems
  have hall := items_fold (segs := pre ++ post) (first := true) (mem := c.mem)
  obtain ⟨f, f1, f2⟩ := addrs_append (pre.map mkChunk) (post.map mkChunk) true
  rw [List.map_append] at h4 h5 h7 h8 hitems hno hshow hall
  have hpre : ∀ x ∈ items true (pre.map mkChunk), loadable x.1 = true := fun x hx => hitems x (by rw [f2]; exact List.mem_append_left _ hx)
  obtain ⟨hno1, hshow1⟩ := addrList_shows pre true 0 hpre
  rw [h5] at h8
  generalize hz : List.replicate _ (0 : UInt8) = zs at h5 h8
  have hlist := h5
  rw [f1, List.map_append, List.append_assoc] at hlist
  rw [f1, List.map_append] at hno hshow
  have hlen : (dskSector b 0).length = 256 := by
    unfold dskSector
    rw [length_slice]
    omega
  have hentry : ∀ i, i < 121 → (dskSector b 0).getD (0x87 + i) 0 = (slice (dskSector b 0) 135 256).getD i 0 := fun i hi => by rw [getD_slice (by omega)]
  have htot : (slice (dskSector b 0) 135 256).length = 121 := by rw [length_slice]; omega
  have hsum := htot
  rw [hlist] at hsum hentry
  rw [f1, List.map_append, List.append_assoc] at h8
  generalize hA1 : (addrList true (pre.map mkChunk)).map UInt8.ofNat = A1 at *
  generalize hA2 : (addrList f (post.map mkChunk)).map UInt8.ofNat = A2 at *
  simp only [List.length_cons, List.length_append] at hsum
  obtain ⟨c1, k1, r1, i1, a1, a2, a3, a4⟩ := boot_start h3 h2 hd hc hs
  -- the first segments
  obtain ⟨m, hm, q', page', L1, L2, r2, i2, b1, b2, b3, b4, b5, b6, b7, b8⟩ := list_prefix hA h2 hd (A2 ++ UInt8.ofNat 0xc0 :: zs) (UInt8.ofNat 0xd1 :: A1) 0 0 0 c1 k1 _ i1 a1 a2
    (by rw [List.length_cons]; omega)
    (fun i hi => by
      rw [List.length_cons] at hi
      rw [Nat.add_zero, hentry i (by omega), ← List.cons_append, List.getD_eq_getElem?_getD, List.getElem?_append_left (by rw [List.length_cons]; omega), ← List.getD_eq_getElem?_getD])
    (fun a ha => by
      rcases List.mem_cons.mp ha with rfl | ha
      · decide
      · exact hno1 a ha)
    h8
    (fun l hm => by
      have := List.of_mem_zip (a := l.1) (b := l.2) hm
      have := List.mem_range'_1.mp this.2
      omega) (by omega)
  have hL : ∀ l ∈ L2, l.2 < 560 := by
    intro l hm
    have hm : l ∈ L1 ++ L2 := List.mem_append_right _ hm
    rw [← b4] at hm
    have := List.of_mem_zip (a := l.1) (b := l.2) hm
    have := List.mem_range'_1.mp this.2
    omega
  have hL1 : L1 = ((items true (pre.map mkChunk)).map (·.1)).zip (List.range' 1 (items true (pre.map mkChunk)).length) := by
    have g1 := decodes_show (Or.inl rfl) (decodes_addrs (pre.map mkChunk) true 1 (as := UInt8.ofNat 0xc0 :: []) hpre (fun j => decodes_end _ j)) 0
    have g2 := b6 (UInt8.ofNat 0xc0 :: [])
    rw [hA1] at g1
    rw [List.cons_append] at g2
    rw [g1, decodes_end [] (q' + 1) page', Option.map_some, List.append_nil] at g2
    exact (Option.some.inj g2).symm
  have hmem : ∀ p, loadable (p / 256) = true → m.mem p = memAfter p pre (c.mem p) := by
    intro p hp
    have := loadable_iff.mp hp
    rw [b7 p hp, hL1, loads_fold b _ 1 c1.mem, items_fold, a3 p (by omega)]
    intro k x hx
    refine h7 k x ?_
    rw [f2, List.getElem?_append_left]
    · exact hx
    · exact (List.getElem?_eq_some_iff.mp hx).1
  -- the others
  obtain ⟨e, he, q2, page2, M1, M2, r3, i3, d1, d2, d3, d4, d5, d6, d7, d8⟩ := list_prefix hA h2 hd (UInt8.ofNat 0xc0 :: zs) A2 _ q' page' m hm L2 i2 b1 b2
    (by rw [List.length_cons]; omega)
    (fun i hi => by
      rw [List.length_cons, Nat.add_assoc, hentry _ (by omega), ← List.cons_append, List.getD_eq_getElem?_getD, List.getElem?_append_right (by rw [List.length_cons]; omega), List.length_cons,
        show 0 + (A1.length + 1) + i - (A1.length + 1) = i by omega, List.getElem?_append_left hi, ← List.getD_eq_getElem?_getD])
    (fun a ha => hno a (List.mem_append_right _ ha)) b5 hL b3
  obtain ⟨z, hz', r4, z1, z2⟩ := list_end i3 d1 (by rw [List.length_cons]; omega) (by
    rw [List.length_cons, hentry _ (by omega), ← List.cons_append, List.getD_eq_getElem?_getD, List.getElem?_append_right (by rw [List.length_cons]; omega), List.length_cons,
      show 0 + (A1.length + 1) + A2.length - (A1.length + 1) = A2.length by omega, List.getElem?_append_right (Nat.le_refl _), Nat.sub_self]
    rfl)
  have hM2 : M2 = [] := by
    rw [decodes_end zs (q2 + 1) page2] at d5
    exact (Option.some.inj d5).symm
  subst hM2
  rw [List.append_nil] at d4
  have s1 := b8 _ a4
  rw [List.foldl_cons, show showEntry (c.mem 0x10002) (UInt8.ofNat 0xd1) = 0 from rfl, hshow1] at s1
  have s2 := d8 _ s1
  rw [← hshow1, ← List.foldl_append, hshow] at s2
  refine ⟨m, hm, z, hz', run, r1.trans r2, r3.trans r4, h1, by rw [z1]; exact h6, hmem, s1, fun p hp => ?_, s2.keep fun p hp => z2 p (by omega)⟩
  have := loadable_iff.mp hp
  have e0 : m.mem p = L1.foldl (loadPage b) c.mem p := by rw [b7 p hp]; exact loads_congr b p _ (a3 p (by omega))
  rw [z2 p (by omega), d7 p hp, ← d4, loads_congr b p L2 e0, ← List.foldl_append, ← b4, loads_fold b _ 1 c.mem h7]
  exact hall p

/-- **C118 (partial).** While an Apple ][ reads a disk that was built, there is a moment after every segment at which the segments so far are in memory, the whole screen
shows the graphics page of the picture loaded last (page 1 before any picture), and the program is started later on.  Missing: the first picture on page 1 when one or more pictures on
page 2 and no other came before it, see `C118_refuted`. -/
theorem C118_partial {pre post : List Seg} {runAddr : Option Nat} {b : Bytes} (h : createDelivery (pre ++ post) runAddr = .ok b)
    (hl : ∀ x ∈ allPages (pre ++ post), loadable x.1 = true) (hn : ¬ ∃ n, pictures pre = List.replicate (n + 1) 1 ++ [0])
    {A : Apple} (hA : A.slot < 8) (hd : A.disk = dskDisk b) {c : Cpu} (hc : AppleBooted A c) (hs : 6 ≤ c.s.toNat) :
    ∃ m hm e he run, A.Runs (c, 0) (m, hm) ∧ A.Runs (m, hm) (e, he) ∧ jumpTarget (pre ++ post) runAddr = some run ∧ e.pc = run % 65536 ∧
      (∀ p, loadable (p / 256) = true → m.mem p = memAfter p pre (c.mem p)) ∧ ShowsHires m.mem (lastPicture pre) ∧
      ∀ p, loadable (p / 256) = true → e.mem p = memAfter p (pre ++ post) (c.mem p) := by
  obtain ⟨m, hm, e, he, run, q1, q2, q3, q4, q5, q6, q7, _⟩ := delivery_screen h hl hA hd hc hs
  rw [displayed_last pictures_or hn] at q6
  exact ⟨m, hm, e, he, run, q1, q2, q3, q4, q5, q6, q7⟩

/-- **C118.** The program starts with the last picture on the screen. -/
theorem C118_start_partial {segs : List Seg} {runAddr : Option Nat} {b : Bytes} (h : createDelivery segs runAddr = .ok b)
    (hl : ∀ x ∈ allPages segs, loadable x.1 = true) (hn : ¬ ∃ n, pictures segs = List.replicate (n + 1) 1 ++ [0])
    {A : Apple} (hA : A.slot < 8) (hd : A.disk = dskDisk b) {c : Cpu} (hc : AppleBooted A c) (hs : 6 ≤ c.s.toNat) :
    ∃ e he run, A.Runs (c, 0) (e, he) ∧ jumpTarget segs runAddr = some run ∧ e.pc = run % 65536 ∧
      (∀ p, loadable (p / 256) = true → e.mem p = memAfter p segs (c.mem p)) ∧ ShowsHires e.mem (lastPicture segs) := by
  obtain ⟨m, hm, e, he, run, q1, q2, q3, q4, _, _, q7, q8⟩ := delivery_screen (pre := []) (post := segs) h hl hA hd hc hs
  rw [List.nil_append] at q3 q7 q8
  rw [displayed_last pictures_or hn] at q8
  exact ⟨e, he, run, q1.trans q2, q3, q4, q7, q8⟩

/-- **C118 is false** for a first picture on page 1 that comes after pictures on page 2: when it is loaded, and until the next picture or the program, the screen still shows page 2. -/
theorem C118_refuted {pre post : List Seg} {runAddr : Option Nat} {b : Bytes} (h : createDelivery (pre ++ post) runAddr = .ok b)
    (hl : ∀ x ∈ allPages (pre ++ post), loadable x.1 = true) {n : Nat} (hn : pictures pre = List.replicate (n + 1) 1 ++ [0])
    {A : Apple} (hA : A.slot < 8) (hd : A.disk = dskDisk b) {c : Cpu} (hc : AppleBooted A c) (hs : 6 ≤ c.s.toNat) :
    lastPicture pre = 0 ∧ ∃ m hm, A.Runs (c, 0) (m, hm) ∧ (∀ p, loadable (p / 256) = true → m.mem p = memAfter p pre (c.mem p)) ∧ ShowsHires m.mem 1 := by
  obtain ⟨m, hm, e, he, run, q1, _, _, _, q5, q6, _, _⟩ := delivery_screen h hl hA hd hc hs
  rw [hn, displayed_wrong] at q6
  refine ⟨?_, m, hm, q1, q5, q6⟩
  unfold lastPicture
  rw [hn, List.getLast?_append]
  rfl

/-! ### concrete cases -/

theorem sample_booted {b : Bytes} (hlen : b.length = 143360) : AppleBooted (sampleApple b) (sampleBooted b) := by
  refine ⟨rfl, rfl, rfl, rfl, ⟨rfl, rfl⟩, dskSector b 0, ?_, ?_⟩
  · show dskDisk b 0 0 = _
    unfold dskDisk
    rw [if_pos ⟨by omega, by omega, hlen⟩]
    rfl
  · intro i hi
    show (if 0x800 + i = 0x2b then (0x60 : UInt8) else if (0x800 + i) / 256 = 8 then _ else 0) = _
    rw [if_neg (by omega), if_pos (by omega), show (0x800 + i) % 256 = i by omega]

/-- two pictures and a program: the second picture is on the screen when the program starts -/
example : ∃ b, createDelivery [⟨0x2000, [1, 2]⟩, ⟨0x4000, [3, 4]⟩, ⟨0x6000, [0x60]⟩] (some 0x6000) = .ok b ∧
    ∃ e h', (sampleApple b).Runs (sampleBooted b, 0) (e, h') ∧ e.pc = 0x6000 ∧ e.mem 0x4001 = 4 ∧ ShowsHires e.mem 1 := by
  obtain ⟨b, hb⟩ := C44_fits (segs := [⟨0x2000, [1, 2]⟩, ⟨0x4000, [3, 4]⟩, ⟨0x6000, [0x60]⟩]) (runAddr := some 0x6000) (by decide +kernel) (by decide +kernel) (by decide +kernel)
  have hn : ¬ ∃ n, pictures [⟨0x2000, [1, 2]⟩, ⟨0x4000, [3, 4]⟩, ⟨0x6000, [0x60]⟩] = List.replicate (n + 1) 1 ++ [0] := by
    rintro ⟨n, h⟩
    rw [show pictures [⟨0x2000, [1, 2]⟩, ⟨0x4000, [3, 4]⟩, ⟨0x6000, [0x60]⟩] = [0, 1] by decide +kernel, List.replicate_succ, List.cons_append] at h
    injection h with h
    exact absurd h (by decide)
  obtain ⟨e, h', run, r, h1, h2, h3, h4⟩ := C118_start_partial hb (allPages_loadable (by decide +kernel)) hn (A := sampleApple b) (show 6 < 8 by decide) rfl
    (sample_booted (C44_every_page_once hb).1) (show 6 ≤ (0xf0 : UInt8).toNat by decide)
  have h1 := Option.some.inj h1
  refine ⟨b, hb, e, h', r, by rw [h2, ← h1], ?_, ?_⟩
  · rw [h3 _ (by decide), show (sampleBooted b).mem 0x4001 = 0 from rfl]; decide +kernel
  · rw [show lastPicture [⟨0x2000, [1, 2]⟩, ⟨0x4000, [3, 4]⟩, ⟨0x6000, [0x60]⟩] = 1 by decide +kernel] at h4
    exact h4

/-- the same pictures in the other order: page 2 stays on the screen -/
example : ∃ b, createDelivery [⟨0x4000, [3, 4]⟩, ⟨0x2000, [1, 2]⟩] (some 0x6000) = .ok b ∧
    ∃ m h', (sampleApple b).Runs (sampleBooted b, 0) (m, h') ∧ m.mem 0x2001 = 2 ∧ ShowsHires m.mem 1 := by
  obtain ⟨b, hb⟩ := C44_fits (segs := [⟨0x4000, [3, 4]⟩, ⟨0x2000, [1, 2]⟩]) (runAddr := some 0x6000) (by decide +kernel) (by decide +kernel) (by decide +kernel)
  obtain ⟨_, m, h', r, h3, h4⟩ := C118_refuted (pre := [⟨0x4000, [3, 4]⟩, ⟨0x2000, [1, 2]⟩]) (post := []) hb (allPages_loadable (by decide +kernel)) (n := 0) (by decide +kernel)
    (A := sampleApple b) (show 6 < 8 by decide) rfl (sample_booted (C44_every_page_once hb).1) (show 6 ≤ (0xf0 : UInt8).toNat by decide)
  refine ⟨b, hb, m, h', r, ?_, h4⟩
  rw [h3 _ (by decide), show (sampleBooted b).mem 0x2001 = 0 from rfl]; decide +kernel

end Atr
