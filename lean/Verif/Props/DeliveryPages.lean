import Verif.Props.DeliveryRun
/-!
# C86: what the boot code does with segments in the pages it needs for itself
-/
namespace Atr

local macro "ins " t:term : tactic => `(tactic| (
  refine aruns1 $t (by simp) ?_
  simp only [Cpu.exec, Cpu.setReg, Cpu.value, Cpu.addr, Cpu.reg, Cpu.flag, Cpu.modify, Apple.head, Nat.reduceAdd, Nat.reduceMod]))

local macro "br " t:term "," h:term : tactic => `(tactic| (
  refine aruns_br $t (by simp) $h ?_
  simp only))

theorem pageCount_pos {origin : Nat} {d : Bytes} (h : d ≠ []) : 0 < pageCount origin d.length := by
  have := List.length_pos_iff.mpr h
  unfold pageCount
  omega

/-- the first page of a segment comes first, in the list and on the disk (except for a graphics screen, whose pages come in another order) -/
theorem chunkPages_first {s : Seg} (hd : s.data ≠ []) (h20 : s.origin / 256 ≠ 0x20) (first : Bool) :
    (∃ t, (chunkPages (mkChunk s) first).1 = s.origin / 256 :: t) ∧ ∃ t, (chunkPages (mkChunk s) first).2 = s.origin / 256 :: t := by
  unfold chunkPages
  simp only
  rw [mkChunk_start, mkChunk_count, if_neg (fun h => h20 h.1)]
  obtain ⟨n, hn⟩ : ∃ n, pageCount s.origin s.data.length = n + 1 := ⟨pageCount s.origin s.data.length - 1, by have := pageCount_pos (origin := s.origin) hd; omega⟩
  rw [hn, List.range'_succ]
  split
  · refine ⟨⟨_, rfl⟩, ?_⟩
    rw [chunks_cons 32 (by omega) _ (List.cons_ne_nil _ _)]
    rw [List.flatMap_cons]
    rw [List.take_succ_cons]
    unfold pageRun
    simp only
    split
    · exact ⟨_, rfl⟩
    · exact ⟨_, rfl⟩
  · exact ⟨⟨_, rfl⟩, ⟨_, rfl⟩⟩

/-- the start of the address list and the first sector of a disk -/
theorem delivery_first {s : Seg} {rest : List Seg} {runAddr : Option Nat} {b : Bytes} (h : createDelivery (s :: rest) runAddr = .ok b) (hd : s.data ≠ [])
    (h20 : s.origin / 256 ≠ 0x20) :
    ∃ run, jumpTarget (s :: rest) runAddr = some run ∧ b.length = 143360 ∧ (∃ r, dskSector b 0 = fstbtCode ++ r) ∧
      (∃ r, slice (dskSector b 0) 135 256 = 0xd1 :: UInt8.ofNat (s.origin / 256) :: r) ∧
      le16 ((dskSector b 0).getD 133 0) ((dskSector b 0).getD 134 0) = run % 65536 ∧
      dskSector b (visited 1) = pageBytes (loadAddr s.origin) s.data (s.origin / 256) := by
  obtain ⟨run, h1, h2, h3, _, h5, h6, h7⟩ := delivery_list h
  obtain ⟨⟨t1, e1⟩, ⟨t2, e2⟩⟩ := chunkPages_first hd h20 true
  refine ⟨run, h1, h2, h3, ?_, h6, ?_⟩
  · rw [h5]
    rw [List.map_cons]
    simp only [addrList]
    rw [e2]
    exact ⟨_, rfl⟩
  · refine (h7 0 (chunkPage (mkChunk s) (s.origin / 256)) ?_).trans ?_
    · rw [List.map_cons]
      simp only [items]
      rw [e1]
      rfl
    · rw [chunkPage_mkChunk (Nat.le_refl _) (by have := pageCount_pos (origin := s.origin) hd; omega)]

/-- from the ROM to the byte of the first page: the first entry of the list only shows a graphics page -/
theorem to_first_page {A : Apple} {b : Bytes} (hb : b.length = 143360) (hd : A.disk = dskDisk b) {r : Bytes} (hboot : dskSector b 0 = fstbtCode ++ r) {v : UInt8} {t : List UInt8}
    (hlist : slice (dskSector b 0) 135 256 = 0xd1 :: v :: t) {c : Cpu} (hc : AppleBooted A c) (hs : 6 ≤ c.s.toNat) :
    ∃ e h', A.Runs (c, 0) (e, h') ∧ AInv A (dskSector b 0) 2 0 0 e h' ∧ e.pc = 0x81c ∧ e.a = v ∧ ∀ p, p < 0xc000 → p ≠ 0x81a → e.mem p = c.mem p := by
  have hlen : (dskSector b 0).length = 256 := by
    unfold dskSector
    rw [length_slice]
    omega
  have g : ∀ i, i < 121 → (dskSector b 0).getD (135 + i) 0 = ((0xd1 : UInt8) :: v :: t).getD i 0 := by
    intro i hi
    rw [← hlist, getD_slice (by omega)]
  obtain ⟨c1, h1, r1, i1, a1, a2, a3, _⟩ := boot_start hboot hb hd hc hs
  obtain ⟨c2, h2, r2, e2, i2, p2, v2, m2⟩ := entry_next i1 a1 (by omega)
  subst e2
  have hd1 : c2.a = 0xd1 := by rw [v2]; exact g 0 (by omega)
  obtain ⟨c3, h3, r3, b0, b1, b2, b3, b4⟩ := entry_done i2 p2
  subst b0
  rw [hd1, if_neg (by decide), if_pos (Or.inr (Or.inl rfl))] at b4
  have i3 : AInv A (dskSector b 0) 1 0 0 c3 h3 := i2.keep b1 b2 b3 (fun p hp => b4.2.1 p (by omega)) (by rw [b4.2.1 _ (by omega)]; exact i2.ptr) (Or.inl rfl)
  obtain ⟨c4, h4, r4, e4, i4, p4, v4, m4⟩ := entry_next i3 b4.1 (by omega)
  subst e4
  refine ⟨c4, h4, r1.trans (r2.trans (r3.trans r4)), i4, p4, ?_, fun p hp hn => ?_⟩
  · rw [v4]; exact g 1 (by omega)
  · rw [m4 p hn, b4.2.1 p hp, m2 p hn, a3 p hp]

/-- **C86.** Not every program is started: a disk whose first segment is in page 8 — programs of an Apple ][ are often there — replaces the loader.  The machine reads
this one page, goes on at 0x801 with the bytes of the segment, and no other page is loaded.  (The first byte of the page is taken by the ROM as the number of sectors to
read; it is 0 for every origin but 0x800.) -/
theorem C86_page8_refuted {s : Seg} {rest : List Seg} {runAddr : Option Nat} {b : Bytes} (h : createDelivery (s :: rest) runAddr = .ok b) (hd : s.data ≠ [])
    (h8 : s.origin / 256 = 8) (h0 : s.origin ≠ 0x800) {A : Apple} (hA : A.slot < 8) (hdisk : A.disk = dskDisk b) {c : Cpu} (hc : AppleBooted A c) (hs : 6 ≤ c.s.toNat) :
    ∃ e h', A.Runs (c, 0) (e, h') ∧ e.pc = 0x801 ∧ (∀ i < 256, e.mem (0x800 + i) = if s.origin ≤ 0x800 + i then s.data.getD (0x800 + i - s.origin) 0 else 0) ∧
      ∀ p, loadable (p / 256) = true → e.mem p = c.mem p := by
  obtain ⟨run, h1, h2, ⟨r, h3⟩, ⟨t, h4⟩, h5, h6⟩ := delivery_first h hd (by omega)
  obtain ⟨c1, k1, r1, i1, a1, a2, a3⟩ := to_first_page h2 hdisk h3 h4 hc hs
  obtain ⟨c2, k2, r2, b0, b1, b2, b3, b4⟩ := entry_done i1 a1
  subst b0
  rw [a2, h8, if_neg (by decide), if_neg (by decide), if_neg (by decide)] at b4
  have i2 : AInv A (dskSector b 0) 2 0 8 c2 k2 := i1.keep b1 b2 b3 (fun p hp => by rw [b4.2, poke_ne _ _ (by omega)]) (by rw [b4.2, poke_ne _ _ (by omega)]; exact i1.ptr)
    (Or.inr (by rw [b4.2, poke_same]; rfl))
  have hslt := c2.s.toNat_lt
  obtain ⟨c3, k3, r3, d0, d1, d2, d3, d4, d5, d6⟩ := turn_block hA (by omega) i2.code b4.1 i2.slot i2.s i2.y i2.t40 i2.t41
  subst d0
  have hpage : (c3.mem 0x27).toNat = 8 := by rw [d6 _ (by omega) (by omega) (by omega), b4.2, poke_same]; rfl
  have hla : loadAddr s.origin = s.origin := by unfold loadAddr; rw [if_neg (by omega)]
  have hsec : A.disk ((0 + 1) / 16) c3.y.toNat = some (pageBytes s.origin s.data 8) := by
    rw [hdisk, d4]
    unfold dskDisk
    rw [hla, h8] at h6
    rw [if_pos ⟨by omega, phys_lt 1, h2⟩, ← h6]
    rfl
  have hbyte : ∀ i < 256, (pageBytes s.origin s.data 8).getD i 0 = if s.origin ≤ 0x800 + i then s.data.getD (0x800 + i - s.origin) 0 else 0 := by
    intro i hi
    unfold pageBytes
    rw [List.getD_eq_getElem?_getD, List.getElem?_map, List.getElem?_range hi]
    rfl
  obtain ⟨e, h', r4, e0, e1, e2, e3, e4, e5, e6, e7, e8, e9, e10, e11, _⟩ := read_block hA (i2.code.keep fun p k1 k2 k3 k4 => d6 p (by omega) (by omega) (by omega)) d1
    (by rw [d3]; exact i2.x) (by rw [d6 _ (by omega) (by omega) (by omega)]; exact i2.slot) (by rw [d2]; exact i2.s) d5 hsec (by rw [d4]; exact phys_lt 1)
    ⟨by omega, by omega, by omega, by omega⟩ (by rw [if_pos hpage, hbyte 0 (by omega), if_neg (by omega)]; exact Nat.zero_le _)
  have hh := i2.head
  rw [hh] at r1 r2
  refine ⟨e, h', r1.trans (r2.trans (r3.trans r4)), e1, ?_, ?_⟩
  · intro i hi
    rw [e10 _ (by omega) (by omega), if_pos hpage, show (0x800 + i) % 256 = i by omega, hbyte i hi]
  · intro p hp
    have := loadable_iff.mp hp
    rw [e11 p hp, if_neg (by omega), d6 p (by omega) (by omega) (by omega), b4.2, poke_ne _ _ (by omega), a3 p (by omega) (by omega)]

/-- **C86.** With a program at 0x802 or above the machine stops there: the byte at 0x801 is 0 (`BRK`). -/
theorem C86_page8_stops_refuted {s : Seg} {rest : List Seg} {runAddr : Option Nat} {b : Bytes} (h : createDelivery (s :: rest) runAddr = .ok b) (hd : s.data ≠ [])
    (h8 : s.origin / 256 = 8) (h0 : 0x801 < s.origin) {A : Apple} (hA : A.slot < 8) (hdisk : A.disk = dskDisk b) {c : Cpu} (hc : AppleBooted A c) (hs : 6 ≤ c.s.toNat) :
    ∃ e h', A.Runs (c, 0) (e, h') ∧ e.pc = 0x801 ∧ e.mem 0x801 = 0 ∧ A.step (e, h') = none ∧ ∀ p, loadable (p / 256) = true → e.mem p = c.mem p := by
  obtain ⟨e, h', r, e1, e2, e3⟩ := C86_page8_refuted h hd h8 (by omega) hA hdisk hc hs
  have hz : e.mem 0x801 = 0 := by
    rw [show (0x801 : Nat) = 0x800 + 1 from rfl, e2 1 (by omega), if_neg (by omega)]
  refine ⟨e, h', r, e1, hz, ?_, e3⟩
  unfold Apple.step
  rw [if_neg (by rw [e1]; omega), if_neg (by rw [e1]; omega), if_neg (by rw [e1]; omega), e1]
  have : decode6502 e.mem 0x801 = none := by
    unfold decode6502
    simp only
    rw [hz]
    rfl
  rw [this]

/-- **C86.** A disk whose first segment is in page 0xc0 loads nothing at all: the loader takes the page for the end of its list. -/
theorem C86_io_page_refuted {s : Seg} {rest : List Seg} {runAddr : Option Nat} {b : Bytes} (h : createDelivery (s :: rest) runAddr = .ok b) (hd : s.data ≠ [])
    (h8 : s.origin / 256 = 0xc0) {A : Apple} (hA : A.slot < 8) (hdisk : A.disk = dskDisk b) {c : Cpu} (hc : AppleBooted A c) (hs : 6 ≤ c.s.toNat) :
    ∃ e h' run, A.Runs (c, 0) (e, h') ∧ jumpTarget (s :: rest) runAddr = some run ∧ e.pc = run % 65536 ∧ ∀ p, loadable (p / 256) = true → e.mem p = c.mem p := by
  obtain ⟨run, h1, h2, ⟨r, h3⟩, ⟨t, h4⟩, h5, _⟩ := delivery_first h hd (by omega)
  obtain ⟨e, h', q, e1, e2⟩ := C86_loader hA h2 hdisk h3 hc hs (L := []) (by rw [h4, h8]; rfl) (fun l hl => nomatch hl)
  exact ⟨e, h', run, q, h1, by rw [e1, h5], e2⟩

/-- **C86.** A segment in page 0 is not loaded: the loader takes 0 for a sector to skip.  The program is started with page 0 as the ROM left it, but for the bytes the
loader uses itself. -/
theorem C86_page0_refuted {s : Seg} {runAddr : Option Nat} {b : Bytes} (h : createDelivery [s] runAddr = .ok b) (hd : s.data ≠ [])
    (h8 : s.origin + s.data.length ≤ 256) {A : Apple} (hA : A.slot < 8) (hdisk : A.disk = dskDisk b) {c : Cpu} (hc : AppleBooted A c) (hs : 6 ≤ c.s.toNat) :
    ∃ e h' run, A.Runs (c, 0) (e, h') ∧ jumpTarget [s] runAddr = some run ∧ e.pc = run % 65536 ∧
      ∀ p, p < 256 → p ≠ 0x27 → p ≠ 0x3d → p ≠ 0x40 → p ≠ 0x41 → e.mem p = c.mem p := by
  have hpos := List.length_pos_iff.mpr hd
  have hz : s.origin / 256 = 0 := by omega
  obtain ⟨run, h1, h2, ⟨r, h3⟩, _, h5, _⟩ := delivery_first h hd (by omega)
  obtain ⟨_, _, _, _, _, hl, _, _⟩ := delivery_list h
  have hcount : pageCount s.origin s.data.length = 1 := by
    unfold pageCount loadAddr
    rw [if_neg (by omega)]
    omega
  have hadr : addrList true [mkChunk s] = [0] := by
    simp only [addrList]
    have e1 : chunkPages (mkChunk s) true = ([0], [0]) := by
      unfold chunkPages
      simp only
      rw [mkChunk_start, mkChunk_count, hcount, hz, if_neg (by omega)]
      rfl
    have e2 : (showCodes (mkChunk s) true).1 = [] := by
      unfold showCodes
      rw [mkChunk_start, hz]
      split <;> rfl
    rw [e1, e2]
    rfl
  rw [List.map_cons, List.map_nil, hadr] at hl
  obtain ⟨c1, k1, r1, i1, a1, a2, a3⟩ := to_first_page h2 hdisk h3 hl hc hs
  obtain ⟨c2, k2, r2, b0, b1, b2, b3, b4⟩ := entry_done i1 a1
  subst b0
  rw [a2, if_neg (by decide), if_neg (by decide), if_neg (by decide)] at b4
  have i2 : AInv A (dskSector b 0) 2 0 0 c2 k2 := i1.keep b1 b2 b3 (fun p hp => by rw [b4.2, poke_ne _ _ (by omega)]) (by rw [b4.2, poke_ne _ _ (by omega)]; exact i1.ptr)
    (Or.inl rfl)
  have hslt := c2.s.toNat_lt
  obtain ⟨c3, k3, r3, d0, d1, d2, d3, d4, d5, d6⟩ := turn_block hA (by omega) i2.code b4.1 i2.slot i2.s i2.y i2.t40 i2.t41
  subst d0
  have hcode : ACode c3.mem := i2.code.keep fun p k1 k2 k3 k4 => d6 p (by omega) (by omega) (by omega)
  have h27 : c3.mem 0x27 = 0 := by rw [d6 _ (by omega) (by omega) (by omega), b4.2, poke_same]; rfl
  have hptr : (c3.mem 0x81a + 1).toNat = 0x89 := by
    have : (c3.mem 0x81a).toNat = 0x88 := by rw [d6 _ (by omega) (by omega) (by omega)]; exact i2.ptr
    rw [u8_add 1 (by rw [this]; decide), this]; rfl
  have hlst : ∀ p, 0x885 ≤ p → p < 0x900 → c3.mem p = (dskSector b 0).getD (p - 0x800) 0 := fun p q1 q2 => by
    rw [d6 _ (by omega) (by omega) (by omega)]; exact i2.lst p q1 q2
  have hend : (dskSector b 0).getD 0x89 0 = 0xc0 := by
    have : (slice (dskSector b 0) 135 256).getD 2 0 = 0xc0 := by rw [hl]; rfl
    rwa [getD_slice (by omega)] at this
  have key : ∃ e h', A.Runs (c3, 2 * ((0 + 1) / 16)) (e, h') ∧ (e.pc = word (c3.mem 0x885) (c3.mem 0x886) ∧ ∀ p, p ≠ 0x3d → p ≠ 0x81a → e.mem p = c3.mem p) := by
    clear d6 i2 r3 d2 d3 d4 d5
    obtain ⟨a, x, y, s', n, z, cf, pc, m⟩ := c3
    simp only at hcode d1 h27 hptr hlst ⊢
    subst d1
    ins hcode.at_855
    have q1 : ACode (poke m 0x3d y) := hcode.poke (by omega)
    ins q1.at_857
    ins q1.at_858
    rw [poke_ne _ _ (show (0x27 : Nat) ≠ 0x3d by omega), h27]
    br q1.at_85a, rfl
    ins q1.at_816
    rw [poke_ne _ _ (show (0x81a : Nat) ≠ 0x3d by omega)]
    have q2 : ACode (poke (poke m 0x3d y) 0x81a (m 0x81a + 1)) := q1.poke (by omega)
    ins q2.at_819
    simp only [poke_same, hptr]
    rw [poke_ne _ _ (show (0x800 + 0x89 : Nat) ≠ 0x81a by omega), poke_ne _ _ (show (0x800 + 0x89 : Nat) ≠ 0x3d by omega), hlst _ (by omega) (by omega),
      show 0x800 + 0x89 - 0x800 = 0x89 from rfl, hend]
    ins q2.at_81c
    br q2.at_81e, rfl
    ins q2.at_884
    refine ⟨_, _, .refl _, ?_, fun p w1 w2 => ?_⟩
    · simp only
      rw [poke_ne _ _ (by omega), poke_ne _ _ (by omega), poke_ne _ _ (by omega), poke_ne _ _ (by omega)]
    · simp only
      rw [poke_ne _ _ w2, poke_ne _ _ w1]
  obtain ⟨e, h', r4, e1, e2⟩ := key
  have hh := i2.head
  rw [hh] at r1 r2
  refine ⟨e, h', run, r1.trans (r2.trans (r3.trans r4)), h1, ?_, fun p w1 w2 w3 w4 w5 => ?_⟩
  · rw [e1, hlst _ (by omega) (by omega), hlst _ (by omega) (by omega)]
    exact h5
  · rw [e2 p w3 (by omega), d6 p w4 w5 (by omega), b4.2, poke_ne _ _ w2, a3 p (by omega) (by omega)]

/-- the entries of a segment that lies within one page and is not part of a graphics page -/
theorem one_page {s : Seg} (hc : pageCount s.origin s.data.length = 1) (h20 : s.origin / 256 ≠ 0x20) (h40 : s.origin / 256 ≠ 0x40) (first : Bool) :
    chunkPages (mkChunk s) first = ([s.origin / 256], [s.origin / 256]) ∧ showCodes (mkChunk s) first = ([], first) := by
  constructor
  · unfold chunkPages
    simp only
    rw [mkChunk_start, mkChunk_count, hc, if_neg (fun h => h20 h.1)]
    rfl
  · unfold showCodes
    rw [mkChunk_start, if_neg h40, if_neg h20]
    split <;> rfl

/-- **C86.** Segments in the pages 0xd0, 0xd1 and 0xd2 are taken for commands to show a picture: no sector is read for them.  The next segment gets the sector of the one
that was skipped, so that its page has the bytes of the other segment when the program starts. -/
theorem C86_card_page_refuted {s t : Seg} {runAddr : Option Nat} {b : Bytes} (h : createDelivery [s, t] runAddr = .ok b) (hd : s.data ≠ [])
    (h8 : 0xd000 ≤ s.origin) (h9 : s.origin < 0xd300) (h1 : s.origin % 256 + s.data.length ≤ 256) (hl : loadable (t.origin / 256) = true)
    (ht : pageCount t.origin t.data.length = 1) (h20 : t.origin / 256 ≠ 0x20) (h40 : t.origin / 256 ≠ 0x40)
    {A : Apple} (hA : A.slot < 8) (hdisk : A.disk = dskDisk b) {c : Cpu} (hc : AppleBooted A c) (hs : 6 ≤ c.s.toNat) :
    ∃ e h' run, A.Runs (c, 0) (e, h') ∧ jumpTarget [s, t] runAddr = some run ∧ e.pc = run % 65536 ∧
      (∀ i < s.data.length, e.mem (256 * (t.origin / 256) + (s.origin % 256 + i)) = s.data.getD i 0) ∧
      ∀ p, loadable (p / 256) = true → p / 256 ≠ t.origin / 256 → e.mem p = c.mem p := by
  have hpos := List.length_pos_iff.mpr hd
  have hcount : pageCount s.origin s.data.length = 1 := by
    unfold pageCount loadAddr
    rw [if_neg (by omega)]
    omega
  obtain ⟨run, g1, g2, ⟨r, g3⟩, _, g5, g6⟩ := delivery_first h hd (by omega)
  obtain ⟨_, _, _, _, _, hlist, _, _⟩ := delivery_list h
  have hadr : addrList true ([s, t].map mkChunk) = [s.origin / 256, t.origin / 256] := by
    obtain ⟨a1, a2⟩ := one_page hcount (by omega) (by omega) true
    obtain ⟨b1, b2⟩ := one_page ht h20 h40 true
    simp only [List.map_cons, List.map_nil, addrList]
    rw [a1, a2]
    simp only
    rw [b1, b2]
    rfl
  have hlt := loadable_iff.mp hl
  have hrun : runLoader (slice (dskSector b 0) 135 256) 0 1 = some [(t.origin / 256, 1)] := by
    rw [hlist, hadr]
    simp only [List.map_cons, List.map_nil, List.cons_append, List.nil_append]
    have e1 : (UInt8.ofNat (s.origin / 256)).toNat = s.origin / 256 := by rw [UInt8.toNat_ofNat']; omega
    have e2 : (UInt8.ofNat (t.origin / 256)).toNat = t.origin / 256 := by rw [UInt8.toNat_ofNat']; omega
    unfold runLoader
    rw [if_neg (by decide), if_pos (by decide)]
    unfold runLoader
    rw [e1, if_neg (by omega), if_pos (by omega)]
    unfold runLoader
    rw [e2, if_neg (by omega), if_neg (by omega), if_neg (by omega), if_pos hl]
    unfold runLoader
    rw [if_pos (by decide)]
    rfl
  obtain ⟨e, h', q, e1, e2⟩ := C86_loader hA g2 hdisk g3 hc hs hrun (fun l hm => by simp at hm; subst hm; show 1 < 560; decide)
  have e3 : ∀ p, loadable (p / 256) = true → e.mem p = if p / 256 = t.origin / 256 then
      (pageBytes (loadAddr s.origin) s.data (s.origin / 256)).getD (p % 256) 0 else c.mem p := by
    intro p hp
    rw [e2 p hp, ← g6]
    rfl
  refine ⟨e, h', run, q, g1, by rw [e1, g5], fun i hi => ?_, fun p hp hne => by rw [e3 p hp, if_neg hne]⟩
  have hdiv : (256 * (t.origin / 256) + (s.origin % 256 + i)) / 256 = t.origin / 256 := by omega
  rw [e3 _ (by rw [hdiv]; exact hl), if_pos hdiv]
  unfold pageBytes loadAddr
  rw [if_neg (by omega), List.getD_eq_getElem?_getD, List.getElem?_map, List.getElem?_range (by omega)]
  simp only [Option.map_some, Option.getD_some]
  rw [if_pos (by omega), show 256 * (s.origin / 256) + (256 * (t.origin / 256) + (s.origin % 256 + i)) % 256 - s.origin = i by omega]

/-- memory after a burst -/
theorem burst_fold (b : Bytes) (p : Nat) : ∀ (n q j : Nat) (mem : Nat → UInt8), ((List.range' q n).zip (List.range' j n)).foldl (loadPage b) mem p =
    if q ≤ p / 256 ∧ p / 256 < q + n then (dskSector b (visited (j + (p / 256 - q)))).getD (p % 256) 0 else mem p := by
  intro n
  induction n with
  | zero => intro q j mem; rw [if_neg (by omega)]; rfl
  | succ n ih =>
    intro q j mem
    rw [List.range'_succ, List.range'_succ, List.zip_cons_cons, List.foldl_cons, ih]
    by_cases h1 : p / 256 = q
    · rw [if_neg (by omega), if_pos (by omega), show j + (p / 256 - q) = j by omega]
      unfold loadPage
      rw [if_pos h1]
    · by_cases h2 : q + 1 ≤ p / 256 ∧ p / 256 < q + 1 + n
      · rw [if_pos h2, if_pos (by omega), show j + 1 + (p / 256 - (q + 1)) = j + (p / 256 - q) by omega]
      · rw [if_neg h2, if_neg (by omega)]
        unfold loadPage
        rw [if_neg h1]

/-- **C86.** A segment in page 0xe0 + n is taken for the command to load `n` more pages behind the segment before it: its bytes appear in the next page (unless `n` is
0, when they are not loaded at all), and the pages after that are filled with zeros from the empty part of the disk. -/
theorem C86_burst_page_refuted {s t : Seg} {runAddr : Option Nat} {b : Bytes} (h : createDelivery [s, t] runAddr = .ok b)
    (hsc : pageCount s.origin s.data.length = 1) (h20 : s.origin / 256 ≠ 0x20) (h40 : s.origin / 256 ≠ 0x40) {n : Nat} (hn : n < 32)
    (h8 : t.origin / 256 = 0xe0 + n) (hd : t.data ≠ []) (h1 : t.origin % 256 + t.data.length ≤ 256)
    (hl : ∀ k ≤ n, loadable (s.origin / 256 + k) = true)
    {A : Apple} (hA : A.slot < 8) (hdisk : A.disk = dskDisk b) {c : Cpu} (hc : AppleBooted A c) (hs : 6 ≤ c.s.toNat) :
    ∃ e h' run, A.Runs (c, 0) (e, h') ∧ jumpTarget [s, t] runAddr = some run ∧ e.pc = run % 65536 ∧
      (0 < n → ∀ i < t.data.length, e.mem (256 * (s.origin / 256 + 1) + (t.origin % 256 + i)) = t.data.getD i 0) ∧
      (∀ k, 2 ≤ k → k ≤ n → ∀ i < 256, e.mem (256 * (s.origin / 256 + k) + i) = 0) ∧
      ∀ p, loadable (p / 256) = true → p / 256 < s.origin / 256 ∨ s.origin / 256 + n < p / 256 → e.mem p = c.mem p := by
  have hpos := List.length_pos_iff.mpr hd
  have htc : pageCount t.origin t.data.length = 1 := by
    unfold pageCount loadAddr
    rw [if_neg (by omega)]
    omega
  obtain ⟨run, g1, g2, ⟨r, g3⟩, _, hlist, g5, g6⟩ := delivery_list h
  obtain ⟨a1, a2⟩ := one_page hsc h20 h40 true
  obtain ⟨b1, b2⟩ := one_page htc (by omega) (by omega) true
  have hadr : addrList true ([s, t].map mkChunk) = [s.origin / 256, t.origin / 256] := by
    simp only [List.map_cons, List.map_nil, addrList]
    rw [a1, a2]
    simp only
    rw [b1, b2]
    rfl
  have hits : items true ([s, t].map mkChunk) = [chunkPage (mkChunk s) (s.origin / 256), chunkPage (mkChunk t) (t.origin / 256)] := by
    simp only [List.map_cons, List.map_nil, items]
    rw [a1, a2]
    simp only
    rw [b1]
    rfl
  have hlt := loadable_iff.mp (hl 0 (by omega))
  have hrun : runLoader (slice (dskSector b 0) 135 256) 0 1 =
      some ((s.origin / 256, 1) :: (List.range' (s.origin / 256 + 1) n).zip (List.range' 2 n)) := by
    rw [hlist, hadr]
    simp only [List.map_cons, List.map_nil, List.cons_append, List.nil_append]
    have e1 : (UInt8.ofNat (s.origin / 256)).toNat = s.origin / 256 := by rw [UInt8.toNat_ofNat']; omega
    have e2 : (UInt8.ofNat (t.origin / 256)).toNat = t.origin / 256 := by rw [UInt8.toNat_ofNat']; omega
    unfold runLoader
    rw [if_neg (by decide), if_pos (by decide)]
    unfold runLoader
    rw [e1, if_neg (by omega), if_neg (by omega), if_neg (by omega), if_pos (show loadable (s.origin / 256) = true from hl 0 (by omega))]
    unfold runLoader
    simp only
    rw [e2, if_neg (by omega), if_neg (by omega), if_pos (by omega), show t.origin / 256 % 32 = n by omega, if_pos (by
      rw [List.all_eq_true]
      intro x hx
      have := List.mem_range'_1.mp hx
      have := hl (x - s.origin / 256) (by omega)
      rwa [show s.origin / 256 + (x - s.origin / 256) = x by omega] at this)]
    unfold runLoader
    rw [if_pos (by decide)]
    simp
  obtain ⟨e, h', q, e1, e2⟩ := C86_loader hA g2 hdisk g3 hc hs hrun (fun l hm => by
    rcases List.mem_cons.mp hm with rfl | hm
    · show 1 < 560; decide
    · have := List.of_mem_zip (a := l.1) (b := l.2) hm
      have := List.mem_range'_1.mp this.2
      omega)
  have e3 : ∀ p, loadable (p / 256) = true → e.mem p = if s.origin / 256 + 1 ≤ p / 256 ∧ p / 256 < s.origin / 256 + 1 + n then
      (dskSector b (visited (2 + (p / 256 - (s.origin / 256 + 1))))).getD (p % 256) 0 else loadPage b c.mem (s.origin / 256, 1) p := by
    intro p hp
    rw [e2 p hp, List.foldl_cons, burst_fold]
  have hsec : dskSector b (visited 2) = pageBytes t.origin t.data (t.origin / 256) := by
    rw [g6 1 (chunkPage (mkChunk t) (t.origin / 256)) (by rw [hits]; rfl), chunkPage_mkChunk (Nat.le_refl _) (by omega)]
    unfold loadAddr
    rw [if_neg (by omega)]
  refine ⟨e, h', run, q, g1, by rw [e1, g5], fun h0 i hi => ?_, fun k hk hkn i hi => ?_, fun p hp hne => ?_⟩
  · have hdiv : (256 * (s.origin / 256 + 1) + (t.origin % 256 + i)) / 256 = s.origin / 256 + 1 := by omega
    rw [e3 _ (by rw [hdiv]; exact hl 1 h0), if_pos (by omega), hdiv, show 2 + (s.origin / 256 + 1 - (s.origin / 256 + 1)) = 2 by omega, hsec]
    unfold pageBytes
    rw [List.getD_eq_getElem?_getD, List.getElem?_map, List.getElem?_range (by omega)]
    simp only [Option.map_some, Option.getD_some]
    rw [if_pos (by omega), show 256 * (t.origin / 256) + (256 * (s.origin / 256 + 1) + (t.origin % 256 + i)) % 256 - t.origin = i by omega]
  · have hdiv : (256 * (s.origin / 256 + k) + i) / 256 = s.origin / 256 + k := by omega
    obtain ⟨_, _, _, pages, p1, _, _, p2⟩ := C44_every_page_once h
    have hlen : pages.length = 2 := by
      exact p1.length_eq.trans ((items_perm [s, t] true).length_eq.symm.trans (by rw [hits]; rfl))
    rw [e3 _ (by rw [hdiv]; exact hl k hkn), if_pos (by omega), hdiv, p2 _ (by omega) (by omega), List.getD_eq_getElem?_getD, List.getElem?_replicate]
    split <;> rfl
  · rw [e3 p hp, if_neg (by omega)]
    unfold loadPage
    rw [if_neg (by omega)]

/-! ### concrete cases -/

theorem sampleBooted_booted {b : Bytes} (hlen : b.length = 143360) : AppleBooted (sampleApple b) (sampleBooted b) := by
  refine ⟨rfl, rfl, rfl, rfl, ⟨rfl, rfl⟩, dskSector b 0, ?_, ?_⟩
  · show dskDisk b 0 0 = _
    unfold dskDisk
    rw [if_pos ⟨by omega, by omega, hlen⟩]
    rfl
  · intro i hi
    show (if 0x800 + i = 0x2b then (0x60 : UInt8) else if (0x800 + i) / 256 = 8 then _ else 0) = _
    rw [if_neg (by omega), if_pos (by omega), show (0x800 + i) % 256 = i by omega]

/-- a program at 0x803 with a second segment at 0x4000 is never started: the machine stops at 0x801, and nothing is at 0x4000 -/
example : ∃ b, createDelivery [⟨0x803, [0x4c, 0x00, 0x40]⟩, ⟨0x4000, [0x60]⟩] none = .ok b ∧ ∃ e h', (sampleApple b).Runs (sampleBooted b, 0) (e, h') ∧
    e.pc = 0x801 ∧ (sampleApple b).step (e, h') = none ∧ e.mem 0x4000 = 0 := by
  obtain ⟨b, hb⟩ := C44_fits (segs := [⟨0x803, [0x4c, 0x00, 0x40]⟩, ⟨0x4000, [0x60]⟩]) (runAddr := none) (by decide +kernel) (by decide +kernel) (by decide +kernel)
  obtain ⟨e, h', r, e1, _, e2, e3⟩ := C86_page8_stops_refuted hb (by decide) (by decide) (by decide) (A := sampleApple b) (show 6 < 8 by decide) rfl
    (sampleBooted_booted (C44_every_page_once hb).1) (show 6 ≤ (0xf0 : UInt8).toNat by decide)
  exact ⟨b, hb, e, h', r, e1, e2, by rw [e3 _ (by decide)]; rfl⟩

/-- variables at 0x80 are not set -/
example : ∃ b, createDelivery [⟨0x80, [0x12]⟩] (some 0x300) = .ok b ∧ ∃ e h', (sampleApple b).Runs (sampleBooted b, 0) (e, h') ∧ e.pc = 0x300 ∧ e.mem 0x80 = 0 := by
  obtain ⟨b, hb⟩ := C44_fits (segs := [⟨0x80, [0x12]⟩]) (runAddr := some 0x300) (by decide +kernel) (by decide +kernel) (by decide +kernel)
  obtain ⟨e, h', run, r, e1, e2, e3⟩ := C86_page0_refuted hb (by decide) (by decide) (A := sampleApple b) (show 6 < 8 by decide) rfl
    (sampleBooted_booted (C44_every_page_once hb).1) (show 6 ≤ (0xf0 : UInt8).toNat by decide)
  obtain rfl : 0x300 = run := Option.some.inj e1
  exact ⟨b, hb, e, h', r, e2, by rw [e3 _ (by decide) (by decide) (by decide) (by decide) (by decide)]; rfl⟩

/-- a segment at 0xc000 keeps the one at 0x2000 from being loaded -/
example : ∃ b, createDelivery [⟨0xc000, [1]⟩, ⟨0x2000, [0x60]⟩] (some 0x2000) = .ok b ∧ ∃ e h', (sampleApple b).Runs (sampleBooted b, 0) (e, h') ∧ e.pc = 0x2000 ∧
    e.mem 0x2000 = 0 := by
  obtain ⟨b, hb⟩ := C44_fits (segs := [⟨0xc000, [1]⟩, ⟨0x2000, [0x60]⟩]) (runAddr := some 0x2000) (by decide +kernel) (by decide +kernel) (by decide +kernel)
  obtain ⟨e, h', run, r, e1, e2, e3⟩ := C86_io_page_refuted hb (by decide) (by decide) (A := sampleApple b) (show 6 < 8 by decide) rfl
    (sampleBooted_booted (C44_every_page_once hb).1) (show 6 ≤ (0xf0 : UInt8).toNat by decide)
  obtain rfl : 0x2000 = run := Option.some.inj e1
  exact ⟨b, hb, e, h', r, e2, by rw [e3 _ (by decide)]; rfl⟩

/-- with a segment at 0xd000, the one at 0x4200 is not what is at 0x4200: byte 7 of the former is there -/
example : ∃ b, createDelivery [⟨0xd000, [7]⟩, ⟨0x4200, [0x60]⟩] (some 0x4200) = .ok b ∧ ∃ e h', (sampleApple b).Runs (sampleBooted b, 0) (e, h') ∧ e.pc = 0x4200 ∧
    e.mem 0x4200 = 7 := by
  obtain ⟨b, hb⟩ := C44_fits (segs := [⟨0xd000, [7]⟩, ⟨0x4200, [0x60]⟩]) (runAddr := some 0x4200) (by decide +kernel) (by decide +kernel) (by decide +kernel)
  obtain ⟨e, h', run, r, e1, e2, e3, _⟩ := C86_card_page_refuted hb (by decide) (by decide) (by decide) (by decide) (by decide) (by decide) (by decide) (by decide)
    (A := sampleApple b) (show 6 < 8 by decide) rfl (sampleBooted_booted (C44_every_page_once hb).1) (show 6 ≤ (0xf0 : UInt8).toNat by decide)
  obtain rfl : 0x4200 = run := Option.some.inj e1
  exact ⟨b, hb, e, h', r, e2, e3 0 (by decide)⟩

/-- with a segment at 0xe300 after the program at 0x6000, its byte 7 is at 0x6100 and the next two pages are cleared -/
example : ∃ b, createDelivery [⟨0x6000, [0x60]⟩, ⟨0xe300, [7]⟩] (some 0x6000) = .ok b ∧ ∃ e h', (sampleApple b).Runs (sampleBooted b, 0) (e, h') ∧ e.pc = 0x6000 ∧
    e.mem 0x6100 = 7 ∧ e.mem 0x62ff = 0 ∧ e.mem 0x6300 = 0 := by
  obtain ⟨b, hb⟩ := C44_fits (segs := [⟨0x6000, [0x60]⟩, ⟨0xe300, [7]⟩]) (runAddr := some 0x6000) (by decide +kernel) (by decide +kernel) (by decide +kernel)
  obtain ⟨e, h', run, r, e1, e2, e3, e4, _⟩ := C86_burst_page_refuted hb (n := 3) (by decide) (by decide) (by decide) (by decide) (by decide) (by decide) (by decide)
    (by decide) (A := sampleApple b) (show 6 < 8 by decide) rfl (sampleBooted_booted (C44_every_page_once hb).1) (show 6 ≤ (0xf0 : UInt8).toNat by decide)
  obtain rfl : 0x6000 = run := Option.some.inj e1
  exact ⟨b, hb, e, h', r, e2, e3 (by decide) 0 (by decide), e4 2 (by decide) (by decide) 255 (by decide), e4 3 (by decide) (by decide) 0 (by decide)⟩

end Atr
