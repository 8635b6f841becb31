import Verif.Props.SegLines
import Verif.Props.DetectDos33
import Verif.Props.CartOpen
import Verif.Props.Bsave
/-!
# C99: what `segments` prints for the other formats
-/
namespace Atr

/-! ### boot disks and KBoot disks -/

/-- the lines every Atari disk begins with -/
def diskLines (menu : List Char) (h : AHeader) (b : Bytes) : List SegLine :=
  [.bytes menu b.length, .placed (if h.headerOffset = 16 then "ATR Header".toList else "XFD Header".toList) 0 h.headerOffset h.headerOffset 0,
    .sectors "Raw disk sectors".toList 1 h.maxSectors]

theorem diskLines_ok {h : AHeader} {b : Bytes} (g : h.Geom b.length) (hm : 1 ≤ h.maxSectors) (menu : List Char) (addr n first num vtoc2 : Nat) :
    (container menu b :: ([⟨.header, b.take h.headerOffset⟩, ⟨.raw, b.drop h.headerOffset⟩] : List ISeg).map (ISeg.shown h addr n first num vtoc2)).map
      (fun s => readSegLine s.line) = (diskLines menu h b).map some := by
  have hoff : (b.take h.headerOffset).length = h.headerOffset := by
    have := g.fit
    rw [List.length_take]; omega
  simp only [List.map_cons, List.map_nil, ISeg.shown, container, diskLines]
  rw [readSegLine_plain, readSegLine_obj, readSegLine_sectors, hoff, Int.zero_add, g.label, show 1 + (h.maxSectors - 1) = h.maxSectors by omega]
  have : h.format ++ " Header".toList = if h.headerOffset = 16 then "ATR Header".toList else "XFD Header".toList := by
    unfold AHeader.format
    split <;> rfl
  rw [this]

/-- **C99, boot disks.** The boot sectors are shown with the address they are loaded to (bytes 2 and 3 of the disk), in full, as the record of six bytes and as the rest. -/
theorem C99_boot {b : Bytes} {h : AHeader} (ho : openHeader b = .ok h) (hs : 6 ≤ h.sectorSize) (hb : 1 ≤ bootByte h b 1)
    (hm : bootByte h b 1 ≤ h.maxSectors) (hz : bootByte h b 0 = 0) : ∃ segs, bootSegments h b = .ok segs ∧
    (HImg.shownBoot { hdr := h, bytes := b } segs).map (fun s => readSegLine s.line) =
      (diskLines "Atari Boot Disk Image".toList h b ++
        [SegLine.placed "Boot Sectors".toList (bootWord h b 2) (bootWord h b 2 + firstBytes h (bootByte h b 1) : Nat) (firstBytes h (bootByte h b 1)) 0,
         SegLine.placed "Boot Header".toList (bootWord h b 2) (bootWord h b 2 + 6 : Nat) 6 0,
         SegLine.placed "Boot Code".toList (bootWord h b 2 + 6 : Nat) (bootWord h b 2 + firstBytes h (bootByte h b 1) : Nat) (firstBytes h (bootByte h b 1) - 6) 0]).map some := by
  have g := openHeader_geom ho
  have e := bootSegments_eq ho hs (by omega) hb
  rw [if_neg (by omega)] at e
  refine ⟨_, e, ?_⟩
  have hfit := firstBytes_fit g hm
  have h6 : 6 ≤ firstBytes h (bootByte h b 1) := by
    unfold firstBytes
    split
    · omega
    · have := Nat.mul_le_mul_left h.sectorSize hb
      omega
  obtain ⟨k, hp, hk, hl⟩ := getPos_first g (by omega)
  have hlen : (slice b h.headerOffset (h.headerOffset + firstBytes h (bootByte h b 1))).length = firstBytes h (bootByte h b 1) := by
    rw [length_slice]; omega
  obtain ⟨d, hd1, hd2⟩ : ∃ d, h.getSectors b 1 1 = .ok d ∧ le16 (d.getD 2 0) (d.getD 3 0) = bootWord h b 2 := by
    refine ⟨slice b h.headerOffset (h.headerOffset + k), by rw [getSectors_one_eq, hp], ?_⟩
    rw [getD_slice (by omega), getD_slice (by omega)]
    rfl
  unfold HImg.shownBoot
  simp only
  rw [hd1]
  simp only
  rw [hd2]
  have hd := diskLines_ok g (by omega) "Atari Boot Disk Image".toList (bootWord h b 2) 6 0 0 0
  rw [List.map_append, ← List.cons_append, List.map_append, hd, List.map_append]
  congr 1
  unfold bootDiskBoot
  rw [if_pos hz]
  simp only [List.map_cons, List.map_nil, ISeg.shown]
  rw [readSegLine_obj, readSegLine_obj, readSegLine_obj, hlen, List.length_take, List.length_drop, hlen, Nat.min_eq_left h6]
  have e1 : ∀ a k : Nat, ((a : Int) + (k : Nat) : Int) = ((a + k : Nat) : Int) := fun _ _ => rfl
  have e2 : ∀ a k : Nat, 6 ≤ k → (((a + 6 : Nat) : Int) + ((k - 6 : Nat) : Int)) = ((a + k : Nat) : Int) := fun a k h => by omega
  rw [e2 _ _ h6, e1, e1]

/-- a disk of three sectors that boots one of them, to $0700 -/
def tinyBoot : Bytes := [0x96, 2, 24, 0, 0x80, 0, 0, 0, 0, 0, 0, 0, 0, 0, 0, 0] ++ [0, 1, 0, 7, 0, 7, 0x60] ++ List.replicate 377 0

example : ∃ h segs, openHeader tinyBoot = .ok h ∧ bootSegments h tinyBoot = .ok segs ∧ h.headerOffset = 16 ∧ bootByte h tinyBoot 0 = 0 ∧ bootByte h tinyBoot 1 = 1 ∧
    (HImg.shownBoot { hdr := h, bytes := tinyBoot } segs).map LSeg.line = ["Atari Boot Disk Image ($190 bytes)".toList, "ATR Header $0000-$0010 ($0010 @ $0000)".toList,
      "Raw disk sectors (sectors 1-3)".toList, "Boot Sectors $0700-$0780 ($0080 @ $0000)".toList, "Boot Header $0700-$0706 ($0006 @ $0000)".toList,
      "Boot Code $0706-$0780 ($007a @ $0000)".toList] := by
  have : (match openHeader tinyBoot with
    | Except.ok h => (match bootSegments h tinyBoot with
      | Except.ok segs => decide (h.headerOffset = 16 ∧ bootByte h tinyBoot 0 = 0 ∧ bootByte h tinyBoot 1 = 1 ∧
    (HImg.shownBoot { hdr := h, bytes := tinyBoot } segs).map LSeg.line = ["Atari Boot Disk Image ($190 bytes)".toList, "ATR Header $0000-$0010 ($0010 @ $0000)".toList,
      "Raw disk sectors (sectors 1-3)".toList, "Boot Sectors $0700-$0780 ($0080 @ $0000)".toList, "Boot Header $0700-$0706 ($0006 @ $0000)".toList,
      "Boot Code $0706-$0780 ($007a @ $0000)".toList])
      | Except.error _ => false)
    | Except.error _ => false) = true := by decide +kernel
  split at this
  · rename_i h h1
    split at this
    · rename_i segs h2
      exact ⟨h, segs, h1, h2, of_decide_eq_true this⟩
    · cases this
  · cases this

/-- **C99 is false for the boot sectors of a disk with a header**: they are said to begin at byte 0 of the file, where the header is; they begin at byte 16. -/
theorem C99_refuted_boot {b : Bytes} {h : AHeader} (ho : openHeader b = .ok h) (h16 : h.headerOffset = 16) (hs : 6 ≤ h.sectorSize) (hb : 1 ≤ bootByte h b 1)
    (hm : bootByte h b 1 ≤ h.maxSectors) (hz : bootByte h b 0 = 0) : ∃ segs start stop n t, bootSegments h b = .ok segs ∧
      some (SegLine.placed "Boot Sectors".toList start stop n 0) ∈ (HImg.shownBoot { hdr := h, bytes := b } segs).map (fun s => readSegLine s.line) ∧
      t ∈ segs ∧ t.name = .bootSectors ∧ t.data = slice b 16 (16 + n) ∧ t.data ≠ slice b 0 n := by
  obtain ⟨segs, e, hl⟩ := C99_boot ho hs hb hm hz
  have e' := bootSegments_eq ho hs (by omega) hb
  rw [if_neg (by omega)] at e'
  have hseg := Except.ok.inj (e.symm.trans e')
  have g := openHeader_geom ho
  have hfit := firstBytes_fit g hm
  have hpos : 1 ≤ firstBytes h (bootByte h b 1) := by
    unfold firstBytes
    split
    · omega
    · have := Nat.mul_le_mul_left h.sectorSize hb
      omega
  refine ⟨segs, bootWord h b 2, (bootWord h b 2 + firstBytes h (bootByte h b 1) : Nat), firstBytes h (bootByte h b 1),
    ⟨.bootSectors, slice b 16 (16 + firstBytes h (bootByte h b 1))⟩, e, ?_, ?_, rfl, rfl, ?_⟩
  · rw [hl]
    simp
  · rw [hseg]
    refine List.mem_append_right _ ?_
    unfold bootDiskBoot
    rw [if_pos hz, h16]
    exact List.mem_cons_self
  · intro hc
    have hmag : b.getD 0 0 = 0x96 := by
      by_cases hp : 16 ≤ b.length ∧ b.take 2 = [0x96, 0x02]
      · match b, hp.2 with
        | x :: y :: r, h2 => exact (List.cons.inj h2).1
      · obtain ⟨h', o1, o2, _⟩ := openHeader_plain hp
        rw [Except.ok.inj (ho.symm.trans o1)] at h16
        omega
    have := congrArg (fun l => l.getD 0 0) hc
    simp only at this
    rw [getD_slice (by omega), getD_slice (by omega), Nat.zero_add, hmag] at this
    unfold bootByte at hz
    rw [h16, show 16 + 0 = 16 from rfl] at hz
    rw [this] at hz
    exact absurd hz (by decide)

theorem kbootLines {b : Bytes} {h : AHeader} (ho : openHeader b = .ok h) (hm : 4 ≤ h.maxSectors) (n : Nat) (hn : bootEnd h + n ≤ b.length) (exe : Bytes)
    (he : exe = slice b (bootEnd h) (bootEnd h + n)) :
    (HImg.shownKboot { hdr := h, bytes := b, exe := exe } (kbootSegments h b exe)).map (fun s => readSegLine s.line) =
      (diskLines "KBoot Disk Image".toList h b ++ [SegLine.placed "KBoot Executable".toList (bootEnd h) (bootEnd h + n : Nat) n 0]).map some := by
  have g := openHeader_geom ho
  obtain ⟨hp4, _⟩ := getPos_fourth g hm
  have hd := diskLines_ok g (by omega) "KBoot Disk Image".toList 0 0 0 0 0
  have hlen : exe.length = n := by
    rw [he, length_slice]
    omega
  unfold HImg.shownKboot kbootSegments
  simp only
  rw [baseSegs_eq _ (openHeader_size ho (by omega)), List.map_append, ← List.cons_append, List.map_append, hd, List.map_append]
  refine congrArg (List.map some (diskLines "KBoot Disk Image".toList h b) ++ ·) ?_
  simp only [List.map_cons, List.map_nil, ISeg.shown, hp4]
  rw [readSegLine_obj, hlen, Int.natCast_add]

/-- **C99 is false for KBoot disks.** The executable is shown with its position in the file as its address, and with position 0. -/
theorem C99_refuted_kboot {b : Bytes} {h : AHeader} (ho : openHeader b = .ok h) (hs : 3 ≤ h.sectorSize) (hm : 4 ≤ h.maxSectors) (hu : UsualDisk h b)
    (hk : KbootLike h b) : ∃ m segs n, kbootParser b true = .ok (.kboot m segs) ∧ kbootLength h b = n ∧ m.exe = slice b (bootEnd h) (bootEnd h + n) ∧ 0 < bootEnd h ∧
    (m.shownKboot segs).map (fun s => readSegLine s.line) =
      (diskLines "KBoot Disk Image".toList h b ++ [SegLine.placed "KBoot Executable".toList (bootEnd h) (bootEnd h + n : Nat) n 0]).map some := by
  have hp := kbootParser_eq ho hs hm hu
  rw [if_pos hk] at hp
  have h0 : 0 < bootEnd h := by unfold bootEnd; split <;> omega
  have h1 := hk.1
  generalize hn : kbootLength h b = n at hp h1 ⊢
  exact ⟨_, _, n, hp, rfl, rfl, h0, kbootLines ho hm n h1 _ rfl⟩

/-! ### cartridges -/

theorem shownBanks_lines {b : Bytes} {h : CartHeader} : ∀ (l : List Nat) (i : Nat), (∀ o ∈ l, h.headerOffset + o * 1024 + h.bankSize * 1024 ≤ b.length) →
    (shownBanks b h i l).map (fun s => readSegLine s.line) = (List.range' (i + 1) l.length).map fun k =>
      some (.placed ("Bank #".toList ++ pctD (k : Nat)) h.bankOrigin (h.bankOrigin + h.bankSize * 1024 : Nat) (h.bankSize * 1024) 0) := by
  intro l
  induction l with
  | nil => intro i _; rfl
  | cons o l ih =>
    intro i ho
    rw [shownBanks, List.map_cons, ih (i + 1) fun x hx => ho x (List.mem_cons_of_mem _ hx), List.length_cons, List.range'_succ, List.map_cons, readSegLine_obj, length_slice]
    have := ho o List.mem_cons_self
    rw [show min (h.headerOffset + o * 1024 + h.bankSize * 1024) b.length - (h.headerOffset + o * 1024) = h.bankSize * 1024 by omega]
    rfl

/-- **C99, cartridges.** The header, the main bank and the other banks, numbered from 1, all with their sizes and the addresses of the type. -/
theorem C99_cart {data : Bytes} {t : Nat} {five : Bool} {h : CartHeader} (ho : openCart data t = .ok h) (hs : cartStrictCheck h t five = .ok ()) :
    (shownCart data five t h).map (fun s => readSegLine s.line) =
      ([SegLine.bytes (cartMenuName five t) data.length,
        SegLine.placed "Cart Header".toList 0 16 16 0,
        SegLine.placed "Main Bank".toList h.mainOrigin (h.mainOrigin + h.mainSize * 1024 : Nat) (h.mainSize * 1024) 0] ++
        (List.range' 1 h.banks.length).map fun k =>
          SegLine.placed ("Bank #".toList ++ pctD (k : Nat)) h.bankOrigin (h.bankOrigin + h.bankSize * 1024 : Nat) (h.bankSize * 1024) 0).map some ∧
    data.length = 16 + h.mainSize * 1024 + h.banks.length * (h.bankSize * 1024) := by
  obtain ⟨c1, c2, c3, c4, c5⟩ := C31_strict ho hs
  have hin : ∀ r ∈ cartRanges h, r.2 ≤ data.length := fun r hr => (c3 r hr).2.2
  unfold cartRanges at hin
  rw [c1] at hin
  have h16 : 16 ≤ data.length := by have := hin _ List.mem_cons_self; simp only at this; omega
  constructor
  · unfold shownCart container
    rw [c1, List.map_cons, readSegLine_plain, if_pos (show (16 : Nat) > 0 by decide)]
    simp only [List.cons_append, List.nil_append, List.map_cons]
    rw [shownBanks_lines h.banks 0 (fun o hm => by
      rw [c1]
      exact hin (16 + o * 1024, 16 + o * 1024 + h.bankSize * 1024) (List.mem_cons_of_mem _ (List.mem_map.mpr ⟨o, hm, rfl⟩)))]
    rw [readSegLine_obj, readSegLine_obj, length_slice, length_slice, List.map_map]
    have := hin _ List.mem_cons_self
    simp only at this
    rw [show min 16 data.length - 0 = 16 by omega,
      show min (16 + h.mainOffset * 1024 + h.mainSize * 1024) data.length - (16 + h.mainOffset * 1024) = h.mainSize * 1024 by omega]
    rfl
  · rcases openCart_spec ho with rfl | ⟨ht, c, k1, k2, k3, k4, _, k5, k6, k7⟩
    · exact absurd c1 (by decide)
    · rw [k7, ← k4]
      rcases k5 with ⟨l1, l2, l3⟩ | ⟨l1, l2, l3, l4⟩
      · rw [l1, l3]
        simp
      · rw [l4, List.length_map, List.length_range, ← l2, ← Nat.mul_assoc, Nat.div_mul_cancel (Nat.dvd_of_mod_eq_zero l3)]
        omega

/-- Every row of the table: the name speaks of the size, and of the machine. -/
theorem cartNames_rows : ∀ c ∈ knownCarts, c.id ≠ 0 → kilobytesIn (textWords (cartMenuName c.is5200 c.id)) = some c.size ∧
    ((textWords (cartMenuName c.is5200 c.id)).contains "5200".toList = c.is5200) := by decide +kernel

/-- **C99, the first line of a cartridge.** It speaks of the number of kilobytes behind the header, and of the machine. -/
theorem C99_cart_name {data : Bytes} {t : Nat} {five : Bool} {h : CartHeader} (ho : openCart data t = .ok h) (hs : cartStrictCheck h t five = .ok ()) (ht : t ≠ 0) :
    ∃ n, kilobytesIn (textWords (cartMenuName five t)) = some n ∧ data.length = 16 + n * 1024 ∧
      (textWords (cartMenuName five t)).contains "5200".toList = five := by
  obtain ⟨_, _, c, k1, k2, k3, k4⟩ := (C65_strict_iff data t five).mp ⟨h, ho, hs⟩
  obtain ⟨r1, r2⟩ := cartNames_rows c k1 (by rw [k2]; exact ht)
  rw [k3, k2] at r1 r2
  exact ⟨c.size, r1, k4, r2⟩

/-- **C99, cartridges of unknown type.** The first line speaks of the machine only. -/
theorem C99_cart_unknown (five : Bool) : kilobytesIn (textWords (cartMenuName five 0)) = none ∧ (textWords (cartMenuName five 0)).contains "Cartridge".toList = true ∧
    ((textWords (cartMenuName five 0)).contains "5200".toList = five) ∧ (textWords (cartMenuName five 0)).head? = some "Atari".toList := by
  cases five <;> decide +kernel

example : cartMenuName false 13 = "XEGS (banks 0-7) 64 KB Cartridge".toList ∧ kilobytesIn (textWords (cartMenuName false 25)) = some 1024 ∧
    cartMenuName true 20 = "Standard 4 KB 5200 Cartridge".toList := by decide +kernel

/-- a cartridge of 4 KB for the 5200 -/
example : ∃ h, openCart ([0x43, 0x41, 0x52, 0x54, 0, 0, 0, 20, 1, 2, 3, 4, 0, 0, 0, 0] ++ List.replicate 4096 0xea) 20 = .ok h ∧ cartStrictCheck h 20 true = .ok () ∧
    h.mainSize * 1024 + h.banks.length * (h.bankSize * 1024) = 4096 := by
  have hl : ([0x43, 0x41, 0x52, 0x54, 0, 0, 0, 20, 1, 2, 3, 4, 0, 0, 0, 0] ++ List.replicate 4096 0xea : Bytes).length = 4112 := by
    rw [List.length_append, List.length_replicate]; rfl
  obtain ⟨h, h1, h2⟩ := (C65_strict_iff ([0x43, 0x41, 0x52, 0x54, 0, 0, 0, 20, 1, 2, 3, 4, 0, 0, 0, 0] ++ List.replicate 4096 0xea) 20 true).mpr
    ⟨⟨by rw [hl]; decide, by rfl⟩, by rfl, ⟨20, true, 4, [4, 0, 32768]⟩, by decide +kernel, rfl, rfl, by rw [hl]; rfl⟩
  have := (C99_cart h1 h2).2
  rw [hl] at this
  exact ⟨h, h1, h2, by omega⟩

/-! ### BSAVE files -/

/-- **C99, BSAVE files.** Address and length as in the first four bytes, and the right position. -/
theorem C99_bin {b : Bytes} {s : Seg} (h : parseBsave b = .ok s) :
    (shownBin b s).map (fun s => readSegLine s.line) = [some (.bytes "BIN (Apple ][ executable)".toList b.length),
      some (.placed "BSAVE data".toList (wordAt b 0) (wordAt b 0 + wordAt b 2 : Nat) (wordAt b 2) 4)] ∧
    s.data = slice b 4 (4 + wordAt b 2) ∧ b.length = 4 + wordAt b 2 := by
  unfold parseBsave at h
  split at h
  · rename_i a0 a1 c0 c1 d
    simp only at h
    split at h
    · cases h
    · rename_i hc
      split at h
      · rename_i ht
        have := Except.ok.inj h
        subst this
        have hl : d.length = le16 c0 c1 := by
          have : (a0 :: a1 :: c0 :: c1 :: d).length - 4 = d.length := rfl
          rw [this] at hc
          exact (Decidable.not_not.mp hc).symm
        have w0 : wordAt (a0 :: a1 :: c0 :: c1 :: d) 0 = le16 a0 a1 := rfl
        have w2 : wordAt (a0 :: a1 :: c0 :: c1 :: d) 2 = le16 c0 c1 := rfl
        refine ⟨?_, ?_, ?_⟩
        · unfold shownBin container
          simp only [List.map_cons, List.map_nil]
          rw [readSegLine_plain, readSegLine_obj, ht, w0, w2, Int.natCast_add]
        · rw [w2]
          show List.take (le16 c0 c1) d = slice (a0 :: a1 :: c0 :: c1 :: d) 4 (4 + le16 c0 c1)
          unfold slice
          rw [Nat.add_comm 4]
          rfl
        · rw [w2, ← hl]
          show d.length + 4 = _
          omega
      · cases h
  · cases h

example : parseBsave [0x00, 0x08, 3, 0, 10, 11, 12] = .ok ⟨0x800, [10, 11, 12]⟩ ∧
    (shownBin [0x00, 0x08, 3, 0, 10, 11, 12] ⟨0x800, [10, 11, 12]⟩).map LSeg.line =
      ["BIN (Apple ][ executable) ($7 bytes)".toList, "BSAVE data $0800-$0803 ($0003 @ $0004)".toList] := by decide +kernel

/-! ### DOS 3.3 disks -/

theorem readFileName33_ok (d : DDirent) (hd : d.deleted = false) (name : List Char) :
    readFileName33 (d.summary ++ " ".toList ++ pctZero 3 d.numSectors ++ " ".toList ++ name) = some (d.locked, some (kindOf33 d.ftype), d.numSectors, name) := by
  have hs : d.summary = [mark d.locked '*' ' ', kindOf33 d.ftype] := by
    unfold DDirent.summary
    rw [hd, typeToText33_eq]
    rfl
  unfold readFileName33
  rw [hs]
  simp only [List.append_assoc, List.cons_append, List.nil_append, List.take_succ_cons, List.take_zero, List.drop_succ_cons, List.drop_zero]
  rw [show " ".toList = [' '] from rfl, expect_append]
  simp only [Option.bind_eq_bind, Option.bind_some]
  rw [number_pctZero 3 _ (by exact noDigit_cons (by rfl))]
  simp only [Option.bind_some]
  rw [expect_append]
  cases d.locked <;> rfl

theorem shownAll_lines {δ : Type} {f : δ → Except Err LSeg} {P : δ → SegLine → Prop} : ∀ {l : List δ},
    (∀ d ∈ l, ∃ s x, f d = .ok s ∧ readSegLine s.line = some x ∧ P d x) → ∃ (ss : List LSeg) (fs : List SegLine), shownAll f l = .ok ss ∧ ss.map (fun s => readSegLine s.line) = fs.map some ∧
      fs.length = l.length ∧ ∀ (i : Nat) (d : δ), l[i]? = some d → ∃ x, fs[i]? = some x ∧ P d x := by
  intro l
  induction l with
  | nil => intro _; exact ⟨[], [], rfl, rfl, rfl, fun i d h => by cases h⟩
  | cons d l ih =>
    intro h
    obtain ⟨s, x, h1, h2, h3⟩ := h d List.mem_cons_self
    obtain ⟨ss, fs, g1, g2, g3, g4⟩ := ih fun e he => h e (List.mem_cons_of_mem _ he)
    refine ⟨s :: ss, x :: fs, by rw [shownAll, h1, g1], by rw [List.map_cons, List.map_cons, h2, g2], by rw [List.length_cons, List.length_cons, g3], ?_⟩
    intro i e he
    cases i with
    | zero => rw [List.getElem?_cons_zero] at he ⊢; exact ⟨x, rfl, (Option.some.inj he) ▸ h3⟩
    | succ i => rw [List.getElem?_cons_succ] at he ⊢; exact g4 i e he

theorem typeToText33_B (t : Nat) : typeToText33 t = 'B' ↔ t = 4 := by
  constructor
  · intro h
    unfold typeToText33 at h
    split at h <;> first | rfl | exact absurd h (by decide)
  · rintro rfl
    rfl

theorem shown33_file {b : Bytes} {cs ds} (c : Consistent33 b cs ds) {d : DDirent} (hd : d ∈ ds) (hl : d.deleted = false) (say : Err → Text) :
    ∃ data, d.getFile 560 b = .ok data ∧ d.shown say 560 b =
      .ok (.obj (d.summary ++ " ".toList ++ pctZero 3 d.numSectors ++ " ".toList ++ latin1 d.filename) (if d.ftype = 4 then (wordAt data 0 : Int) - 4 else 0) data.length 0) := by
  have hsz := c.size
  obtain ⟨ts, map, f1, f2, f3, f4, f5⟩ := c.contents hd hl
  have ht := f1.tsMap hsz f2
  have hne : (map.flatMap fun s => slice b (256 * s) (256 * s + 256)) ≠ [] := by
    intro hc
    have : ∀ s ∈ map, (slice b (256 * s) (256 * s + 256)) = [] := List.flatMap_eq_nil_iff.mp hc
    obtain ⟨s, r, hr⟩ := List.exists_cons_of_ne_nil f2
    have hs : s ∈ map := by rw [hr]; exact List.mem_cons_self
    have hl := length_sec33 hsz (s := s) (f4 s (by simp [hs])).1.2.1
    rw [sec33, this s hs] at hl
    cases hl
  generalize map.flatMap (sec33 b) = data at f5
  refine ⟨data, f5, ?_⟩
  unfold DDirent.shown
  rw [f5, ht]
  simp only
  rw [if_neg hne]
  by_cases h4 : d.ftype = 4
  · rw [if_pos h4, if_pos ((typeToText33_B _).mpr h4)]
    rfl
  · rw [if_neg h4, if_neg (fun hc => h4 ((typeToText33_B _).mp hc))]

/-- the lines before the files -/
def lines33 (cats : Nat) : List SegLine :=
  [.bytes "DOS 3.3 Disk Image".toList 143360, .placed "DOS 3.3 Header".toList 0 0 0 0, .sectors "Raw disk sectors".toList 0 559,
    .placed "Boot 1".toList 0x800 0x900 256 0, .placed "Boot 2".toList 0x3700 0x4000 2304 0, .placed "Relocator".toList 0x1b00 0x1d00 512 0,
    .placed "Boot 3".toList 0x1d00 0x3700 6656 0, .sectors "VTOC".toList 272 272, .bytes "Catalog".toList (256 * cats)]

theorem lines33_ok {b : Bytes} {cs : List Nat} (hb : b.length = 143360) (hcs : ∀ s ∈ cs, s < 560) :
    (container "DOS 3.3 Disk Image".toList b :: (([⟨.header, []⟩, ⟨.raw, b⟩] ++
      [⟨.boot1, sec33 b 0⟩, ⟨.boot2, (List.range' 1 9).flatMap (sec33 b)⟩, ⟨.relocator, (List.range' 10 2).flatMap (sec33 b)⟩,
       ⟨.boot3, (List.range' 12 26).flatMap (sec33 b)⟩, ⟨.vtoc, sec33 b 272⟩, ⟨.directory, cs.flatMap (sec33 b)⟩] : List ISeg)).map (ISeg.shown33 560)).map
      (fun s => readSegLine s.line) = (lines33 cs.length).map some := by
  have hlen : ∀ l : List Nat, (∀ s ∈ l, s < 560) → (l.flatMap (sec33 b)).length = 256 * l.length := by
    intro l
    induction l with
    | nil => intro _; rfl
    | cons s l ih =>
      intro hl
      rw [List.flatMap_cons, List.length_append, length_sec33 hb (hl s List.mem_cons_self), ih fun x hx => hl x (List.mem_cons_of_mem _ hx), List.length_cons]
      omega
  have hr : ∀ i n, i + n ≤ 560 → ((List.range' i n).flatMap (sec33 b)).length = 256 * n := by
    intro i n h
    rw [hlen _ (fun s hs => by rw [List.mem_range'_1] at hs; omega), List.length_range']
  unfold lines33 container
  simp only [List.cons_append, List.nil_append, List.map_cons, List.map_nil, ISeg.shown33]
  simp only [readSegLine_plain, readSegLine_obj, readSegLine_sectors, hb, hlen cs hcs, hr 1 9 (by omega), hr 10 2 (by omega), hr 12 26 (by omega),
    length_sec33 hb (show 0 < 560 by omega)]
  rfl

/-- **C99, DOS 3.3 disks.** The file, all sectors, the four parts of DOS with the addresses DOS 3.3 loads them to, the VTOC, the catalog with its number of bytes, and a line
for each file of the listing with lock, type, number of sectors, name and number of bytes (all its sectors).  Files of type B are shown so that the byte behind the four
bytes of address and length is at the address. -/
theorem C99_dos33 {m : DImg} {cs ds} (hm : Mounted33 m cs ds) (say : Err → Text) : ∃ ls fs, m.shown say = .ok ls ∧
    ls.map (fun s => readSegLine s.line) = (lines33 cs.length ++ fs).map some ∧
    fs.length = m.listing.length ∧
    ∀ (i : Nat) (d : DDirent), m.files[i]? = some d → ∃ t data, m.listing[i]? = some (d.filename, d.ftype, .ok data) ∧
      readFileName33 t = some (d.locked, some (kindOf33 d.ftype), d.numSectors, latin1 d.filename) ∧
      ∃ start : Int, fs[i]? = some (SegLine.placed t start (start + data.length) data.length 0) ∧ start = if d.ftype = 4 then (wordAt data 0 : Int) - 4 else 0 := by
  obtain ⟨fs0, h1, h2⟩ := C73_segments hm
  obtain ⟨c, e⟩ := mounted33_iff.mp hm
  have hmax : m.maxSectors = 560 := by rw [e]; rfl
  have hfl : fs0.length = m.files.length := by
    have := congrArg List.length h2
    rw [List.length_map, List.length_map] at this
    rw [this]; unfold DImg.listing; rw [List.length_map]
  have hlive : ∀ d ∈ m.files, d ∈ ds ∧ d.deleted = false := by
    intro d hd
    rw [e] at hd
    have := List.mem_filter.mp (show d ∈ ds.filter fun d => !d.deleted from hd)
    exact ⟨this.1, by simpa using this.2⟩
  obtain ⟨ss, fs, g1, g2, g3, g4⟩ := shownAll_lines (f := DDirent.shown say m.maxSectors m.bytes) (l := m.files)
    (P := fun d x => ∃ t data, d.getFile 560 m.bytes = .ok data ∧ readFileName33 t = some (d.locked, some (kindOf33 d.ftype), d.numSectors, latin1 d.filename) ∧
      ∃ start : Int, x = SegLine.placed t start (start + data.length) data.length 0 ∧ start = if d.ftype = 4 then (wordAt data 0 : Int) - 4 else 0)
    (fun d hd => by
      obtain ⟨data, k1, k2⟩ := shown33_file c (hlive d hd).1 (hlive d hd).2 say
      rw [hmax]
      exact ⟨_, _, k2, readSegLine_obj _ _ _ _, _, data, k1, readFileName33_ok d (hlive d hd).2 _, _, rfl, rfl⟩)
  have hcs : ∀ s ∈ cs, s < 560 := fun s hs => (c.cat.lt s hs).2
  refine ⟨_, fs, by unfold DImg.shown; rw [h1, g1], ?_, by rw [g3]; unfold DImg.listing; rw [List.length_map], ?_⟩
  · rw [List.length_append, hfl, Nat.add_sub_cancel, List.take_left, hmax, ← List.cons_append, List.map_append, lines33_ok c.size hcs, g2, List.map_append]
  · intro i d hi
    obtain ⟨x, k1, t, data, k2, k3, start, k4, k5⟩ := g4 i d hi
    refine ⟨t, data, ?_, k3, start, by rw [k1, k4], k5⟩
    unfold DImg.listing
    rw [List.getElem?_map, hi, Option.map_some, hmax, k2]

/-- an empty disk -/
example (say : Err → Text) : ∃ ls, (mount33 blank33 []).shown say = .ok ls ∧ ls.map (fun s => readSegLine s.line) = (lines33 15).map some := by
  obtain ⟨ls, fs, h1, h2, h3, _⟩ := C99_dos33 mounted_blank33 say
  have : fs = [] := List.length_eq_zero_iff.mp h3
  rw [this, List.append_nil, show catBlank33.length = 15 by decide] at h2
  exact ⟨ls, h1, h2⟩

/-- a binary file with a load address below 4 is shown with a negative one -/
example : (LSeg.obj " B 002 LOW".toList (2 - 4) 256 0).line = " B 002 LOW $-002-$00fe ($0100 @ $0000)".toList := by decide +kernel

end Atr
