import Verif.Props.DetectOther
import Verif.Props.DetectCli
import Verif.Props.Dos33Frame
/-!
# C73, C74: DOS 3.3 disks: the segments shown, and command-line histories including the choice of the format
-/
namespace Atr

/-! ### the segments -/

theorem slice_sectors33 {b : Bytes} (hb : b.length = 143360) : ∀ (k s : Nat), s + k ≤ 560 →
    slice b (256 * s) (256 * (s + k)) = (List.range' s k).flatMap (sec33 b) := by
  intro k
  induction k with
  | zero => intro s _; simp [slice]
  | succ k ih =>
    intro s hs
    rw [List.range'_succ, List.flatMap_cons, ← ih (s + 1) (by omega)]
    unfold sec33
    rw [show 256 * (s + 1) = 256 * s + 256 by omega, slice_append_slice _ _ _ _ (by omega) (by omega) (by omega)]
    congr 1
    omega

theorem slice33_eq {b : Bytes} (hb : b.length = 143360) {s k : Nat} (h : s + k < 560) :
    slice33 560 b s (s + k) = .ok ((List.range' s (k + 1)).flatMap (sec33 b)) := by
  unfold slice33
  rw [if_pos h, ← slice_sectors33 hb _ _ (by omega)]
  rfl

theorem catChain33_eq {b : Bytes} (hb : b.length = 143360) {s cs} (h : Chain33 b s cs) : ∀ fuel, cs.length < fuel →
    catChain33 560 b fuel s = .ok (cs.flatMap (sec33 b)) := by
  induction h with
  | nil =>
    intro fuel hf
    cases fuel with
    | zero => omega
    | succ fuel => rfl
  | @cons s cs h0 h1 h2 ih =>
    intro fuel hf
    cases fuel with
    | zero => omega
    | succ fuel =>
      unfold catChain33
      have hn : s ≠ 0 := by omega
      have hl := length_sec33 hb (s := s) (by omega)
      rw [if_neg hn, if_neg (by omega)]
      simp only
      rw [if_neg (by omega), ih fuel (by simp only [List.length_cons] at hf; omega)]
      rfl

/-- **C73.** The segments of a consistent DOS 3.3 volume: the whole file, the boot sectors, the VTOC, the sectors of the catalog in
the order of their links, and every listed file with its contents. -/
theorem C73_segments {m : DImg} {cs ds} (hm : Mounted33 m cs ds) : ∃ fs, m.segments =
    .ok ([⟨.header, []⟩, ⟨.raw, m.bytes⟩] ++
      [⟨.boot1, sec33 m.bytes 0⟩, ⟨.boot2, (List.range' 1 9).flatMap (sec33 m.bytes)⟩, ⟨.relocator, (List.range' 10 2).flatMap (sec33 m.bytes)⟩,
       ⟨.boot3, (List.range' 12 26).flatMap (sec33 m.bytes)⟩, ⟨.vtoc, sec33 m.bytes 272⟩, ⟨.directory, cs.flatMap (sec33 m.bytes)⟩] ++ fs) ∧
    fs.map (fun s => (s.name, Except.ok s.data)) = m.listing.map fun x => (.file x.1, x.2.2) := by
  obtain ⟨c, e⟩ := mounted33_iff.mp hm
  generalize m.bytes = b at c e
  subst e
  obtain ⟨fs, f1, f2⟩ := fileSegs_ok (name := DDirent.filename) (get := fun d => d.getFile 560 b) (b := b) (ds.filter fun d => !d.deleted)
    (fun d hd => by
      obtain ⟨h1, h2⟩ := List.mem_filter.mp hd
      obtain ⟨_, _, _, _, _, _, h⟩ := c.contents h1 (by simpa using h2)
      exact ⟨_, h⟩)
  refine ⟨fs, ?_, ?_⟩
  · have hsl : ∀ s, s < 560 → slice33 560 b s s = .ok (sec33 b s) := by
      intro s hs
      have := slice33_eq c.size (s := s) (k := 0) (by omega)
      simpa using this
    unfold DImg.segments
    simp only [mount33]
    rw [hsl 0 (by omega), slice33_eq c.size (s := 1) (k := 8) (by omega), slice33_eq c.size (s := 10) (k := 1) (by omega),
      slice33_eq c.size (s := 12) (k := 25) (by omega), hsl 272 (by omega), catChain33_eq c.size c.cat _ (by have := c.cat.length_le; omega), f1]
    rw [baseSegs_eq _ (by omega), List.take_zero, List.drop_zero]
  · rw [f2]
    unfold DImg.listing
    rw [List.map_map]
    rfl

/-! ### the format is found -/

/-- the header that the parsers of Atari disks make up for a file of 143360 bytes without ATR header: 1120 sectors of 128 bytes -/
def h33 : AHeader := { imageSize := 143360, payloadBytes := 125, maxSectors := 1120 }

theorem openHeader_33 {b : Bytes} (hb : b.length = 143360) (h : b.take 2 ≠ [0x96, 0x02]) : openHeader b = .ok h33 := by
  have hp : AHeader.parse (slice b 0 16) = .error .invalidAtrHeader := by
    rcases parse_cases' (slice b 0 16) with hp | ⟨h1, h2⟩
    · exact hp
    · rw [slice_zero, List.take_take] at h2
      exact absurd h2 h
  unfold openHeader readHeader
  rw [hp, hb]
  decide

/-- The file is taken for a DOS 3.3 disk, and so is every file with the same boot sector that holds a DOS 3.3 volume and in which
`zipfile` finds no archive. -/
structure Dos33File (L : Libs) (b : Bytes) : Prop where
  /-- no decompressor, no entry of the database takes a file of this length with this boot sector -/
  plain : ∀ b' : Bytes, b'.length = b.length → sec33 b' 0 = sec33 b 0 → L.Plain b'
  /-- no ATR header, not the start of an Atari executable -/
  notAtr : (sec33 b 0).take 2 ≠ [0x96, 0x02]
  notXex : (sec33 b 0).take 2 ≠ [0xff, 0xff]
  notSparta : ¬ SpartaLike h33 b

theorem take_sec33 (b : Bytes) : (sec33 b 0).take 2 = b.take 2 := by
  unfold sec33
  rw [show 256 * 0 = 0 by omega, slice_zero, List.take_take]
  rfl

theorem sparta_same33 {b b' : Bytes} (h : sec33 b' 0 = sec33 b 0) : SpartaLike h33 b' ↔ SpartaLike h33 b := by
  have hf : b'.take 256 = b.take 256 := by
    unfold sec33 at h
    rw [show 256 * 0 = 0 by omega, slice_zero, slice_zero] at h
    exact h
  have e : ∀ i, i < 256 → bootByte h33 b' i = bootByte h33 b i := fun i hi => by
    unfold bootByte
    rw [getD_of_take hf (by show 0 + i < 256; omega)]
  unfold SpartaLike bootWord
  simp only [e 9 (by omega), e (9 + 1) (by omega), e 11 (by omega), e (11 + 1) (by omega), e 16 (by omega), e (16 + 1) (by omega),
    e 18 (by omega), e (18 + 1) (by omega), e 31 (by omega), e 32 (by omega)]

theorem Dos33File.same {L : Libs} {b b' : Bytes} (d : Dos33File L b) (hl : b'.length = b.length) (h0 : sec33 b' 0 = sec33 b 0) : Dos33File L b' :=
  ⟨fun b2 h1 h2 => d.plain b2 (h1.trans hl) (h2.trans h0), by rw [h0]; exact d.notAtr, by rw [h0]; exact d.notXex,
    fun h => d.notSparta ((sparta_same33 h0).mp h)⟩

theorem Dos33File.other {L : Libs} {b : Bytes} (d : Dos33File L b) (hb : b.length = 143360) (hz : L.zip b = .ok none) : OtherFile L b := by
  have hn := d.notAtr
  rw [take_sec33] at hn
  refine ⟨d.plain b rfl rfl, fun h => hn h.2, by rw [hb]; decide, ?_, hz⟩
  intro h ho _
  rw [openHeader_33 hb hn] at ho
  injection ho with ho
  subst ho
  exact d.notSparta

/-- **C74 (partial).** A consistent DOS 3.3 volume is taken for what it is, unless a zip archive is found in it (or its boot
sector looks like an Atari disk or executable, which `Dos33File` excludes). -/
theorem C74_detected_partial {L : Libs} {m : DImg} {cs ds} (hm : Mounted33 m cs ds) (d : Dos33File L m.bytes) (hz : L.zip m.bytes = .ok none) :
    ∃ segs t, m.segments = .ok segs ∧ detect L m.bytes = .ok (.dos33 m segs, t) := by
  obtain ⟨fs, h1, _⟩ := C73_segments hm
  have hx := d.notXex
  rw [take_sec33] at hx
  obtain ⟨t, ht⟩ := C71_dos33 (d.other hm.2.size hz) hx hm.1 h1
  exact ⟨_, t, h1, ht⟩

/-- **C74, the exception.** The MAME parser comes before the DOS 3.3 parser, and `zipfile` looks for an archive from the end of the
file: when a file on the disk is a zip archive that it finds, with member sizes divisible by 16, the disk is taken for a set
of ROMs, whatever else is on it. -/
theorem C74_zip_hides {L : Libs} {m : DImg} {cs ds} (hm : Mounted33 m cs ds) (d : Dos33File L m.bytes) {items : List ZipItem}
    (hz : L.zip m.bytes = .ok (some items)) (h0 : items ≠ []) (h16 : ∀ i ∈ items, i.fileSize % 16 = 0) :
    ∃ r t, detect L m.bytes = .ok (.mame (items.map (·.data)).flatten r, t) := by
  have hb := hm.2.size
  have hn := d.notAtr
  have hx := d.notXex
  rw [take_sec33] at hn hx
  have ho := openHeader_33 hb hn
  rw [detect_plain (d.plain _ rfl rfl)]
  unfold mimeParseOrder
  rw [mime_skip (atr_none ho rfl (Or.inl rfl) (by rw [hb]; decide) (fun _ => d.notSparta)), skip_xex ?_,
    mime_skip (m := .cart8) (carts_not _ (fun t _ => not_cart_size hb t false)),
    mime_skip (m := .cart5200) (carts_not _ (fun t _ => not_cart_size hb t true))]
  · have hany : (items.any fun i => decide (i.fileSize % 16 > 0)) = false := by
      rw [List.any_eq_false]
      intro i hi
      have := h16 i hi
      simp [this]
    have hp : ∃ r, mameParser L.zip m.bytes true = .ok (.mame (items.map (·.data)).flatten r) := by
      refine ⟨(items.foldl (fun (acc : List (Nat × Nat) × Nat) i => (acc.1 ++ [(acc.2, acc.2 + i.fileSize)], acc.2 + i.fileSize)) ([], 0)).1, ?_⟩
      unfold mameParser ImageClass.parser
      rw [parse_eq]
      unfold ImageClass.parseBody
      simp only
      rw [hz]
      simp only
      unfold openMame
      rw [hany, if_neg (by decide), List.isEmpty_eq_false_iff.mpr h0]
      rfl
    obtain ⟨r, hp⟩ := hp
    obtain ⟨t, ht⟩ := mime_take (zip := L.zip) (m := .mame) (ms := [.appleDsk, .appleBin, .rom]) (try_take (ps := []) hp) (by decide)
    exact ⟨r, t, by rw [ht]; rfl⟩
  · rintro l ⟨h1 | ⟨r, h1⟩, _⟩
    · omega
    · exact hx (by rw [h1]; rfl)

/-! ### histories -/

/-- the files that the commands of a history find, and the last one -/
def seenFiles {σ : Type} : List (Driver σ × Opts × Cmd) → Bytes → List Bytes
  | [], b => [b]
  | (D, o, c) :: cs, b => b :: seenFiles cs (c.run D o b).2

/-- the command line with `find_diskimage`, a file type for each command -/
def withLibs (L : Libs) (cs : List (Char × Opts × Cmd)) : List (Driver (AImg ⊕ DImg) × Opts × Cmd) := cs.map fun x => (diskDriver L x.1, x.2)

/-- **C74, histories (partial).** A history of commands on a consistent DOS 3.3 volume, each command finding out the format by itself: it does
what it does in C14, provided `zipfile` finds no archive in the files in between. -/
theorem C74_history_partial {L : Libs} {cat : List Nat} : ∀ (cs : List (Char × Opts × Cmd)) (b : Bytes) (M : FMap),
    Holds33 cat b M → Dos33File L b → (∀ x ∈ cs, x.1 ≠ 'T') → (∀ f ∈ seenFiles (withLibs L cs) b, L.zip f = .ok none) →
    HistoryLegalG Fits33 (7 * (cat.length - 1)) M (cs.map (·.2)) (runHistoryD (withLibs L cs) b).1 →
    runHistoryD (withLibs L cs) b = runHistory33 cs b ∧
    Holds33 cat (runHistoryD (withLibs L cs) b).2 (specHistory M (cs.map (·.2)) (runHistoryD (withLibs L cs) b).1) ∧
    Dos33File L (runHistoryD (withLibs L cs) b).2 := by
  intro cs
  induction cs with
  | nil => intro b M hh ha _ _ _; exact ⟨rfl, hh, ha⟩
  | cons x cs ih =>
    intro b M hh ha ht hz hl
    obtain ⟨t, o, c⟩ := x
    obtain ⟨l1, l2⟩ := hl
    have htt : t ≠ 'T' := ht _ (List.mem_cons_self ..)
    obtain ⟨m, ds, h1, h2, h3, h4⟩ := id hh
    have hrun : c.run (diskDriver L t) o b = c.run (dos33Driver t) o b := by
      subst h3
      obtain ⟨segs, k, hs, hd⟩ := C74_detected_partial h2 ha (hz _ (List.mem_cons_self ..))
      refine run_embeds (embeds_dos33 L t) o c h2.1 ?_
      show loadDisk L m.bytes = _
      unfold loadDisk
      rw [hd]
    have hsys : SysSec33 m.bytes cat ds 0 := by
      refine ⟨by omega, fun h => ?_, fun h => ?_, fun d hd hl ts map hf hx => ?_⟩
      · exact absurd rfl (h2.2.cat.lt 0 h).1
      · have := (h2.2.free 0 h).1
        omega
      · obtain ⟨ts', map', f1, _, _, f4⟩ := h2.2.files d hd hl
        obtain ⟨rfl, rfl⟩ := f1.unique hf
        have := (f4 0 hx).1.1
        omega
    obtain ⟨m', g1, ⟨g2, ds', g3, g4⟩, g5⟩ := (run_sim (simSys33 htt cat (· = 0) b) (c := c) (o := o)
      ⟨m, h1, ⟨⟨ds, h2, h4⟩, ds, h2, fun s hs => by subst hs; exact ⟨hsys, by rw [h3]⟩⟩, h3⟩ l1).1
    rw [← hrun] at g1 g5 g2
    have hb' : m'.bytes = (c.run (diskDriver L t) o b).2 := g5
    have hlen : m'.bytes.length = b.length := by rw [g3.2.size, ← h3, h2.2.size]
    have g40 := (g4 0 rfl).2
    rw [hb'] at hlen g40
    have hh' : Holds33 cat (c.run (diskDriver L t) o b).2 (c.specR o M (c.run (diskDriver L t) o b).1) :=
      (holds33_iff t).mpr ⟨m', g1, g2, g5⟩
    obtain ⟨i1, i2, i3⟩ := ih _ _ hh' (ha.same hlen g40) (fun x hx => ht x (List.mem_cons_of_mem _ hx))
      (fun f hf => hz f (List.mem_cons_of_mem _ hf)) l2
    refine ⟨?_, i2, i3⟩
    show ((c.run (diskDriver L t) o b).1 :: (runHistoryD (withLibs L cs) (c.run (diskDriver L t) o b).2).1,
      (runHistoryD (withLibs L cs) (c.run (diskDriver L t) o b).2).2) = _
    rw [i1, hrun]
    rfl

/-! ### examples -/

theorem blank33_boot : sec33 blank33 0 = List.replicate 256 0 :=
  (sec33_flatMap blankSec33_length (by omega)).trans (by unfold blankSec33; rw [if_neg (by omega), if_neg (by omega)])

/-- the blank disk, for libraries that look at magic numbers at the start of the file only (whatever archives they find) -/
theorem dos33File_blank (zip) : Dos33File { magicLibs with zip := zip } blank33 := by
  refine ⟨fun b' _ h0 => ?_, by rw [blank33_boot]; decide, by rw [blank33_boot]; decide, ?_⟩
  · rw [blank33_boot] at h0
    unfold sec33 at h0
    rw [show 256 * 0 = 0 by omega, slice_zero] at h0
    obtain ⟨t, rfl⟩ : ∃ t, b' = 0 :: 0 :: 0 :: 0 :: 0 :: 0 :: t := by
      refine ⟨b'.drop 6, ?_⟩
      have : b'.take 6 = [0, 0, 0, 0, 0, 0] := by
        have := congrArg (List.take 6) h0
        rw [List.take_take] at this
        exact this
      conv => lhs; rw [← List.take_append_drop 6 b', this]
      rfl
    refine ⟨Or.inl ?_, Or.inl ?_, Or.inl ?_, ?_, rfl⟩
    · simp [magicLibs]
    · simp [magicLibs]
    · simp [magicLibs]
    · rintro ⟨a, b, q, h, ha, _⟩
      injection h with h _
      subst h
      revert ha
      decide
  · intro h
    have h1 := h.1
    unfold bootWord bootByte at h1
    have hf : blank33.take 256 = (List.replicate 256 (0 : UInt8)).take 256 := by
      have := blank33_boot
      unfold sec33 at this
      rw [show 256 * 0 = 0 by omega, slice_zero] at this
      exact this.trans (List.take_of_length_le (by rw [List.length_replicate]; exact Nat.le_refl _)).symm
    rw [getD_of_take hf (by decide), getD_of_take hf (by decide)] at h1
    revert h1
    decide

/-- six commands on the blank disk, each finding out the format by itself -/
example : Holds33 catBlank33 (runHistoryD (withLibs magicLibs sampleHistory33) blank33).2
    (specHistory [] (sampleHistory33.map (·.2)) (runHistoryD (withLibs magicLibs sampleHistory33) blank33).1) := by
  have fA : norm33 nameA = nameA ∧ ∀ c ∈ nameA.take 30, c < 0x80 := by decide
  have fB : norm33 nameB = nameB ∧ ∀ c ∈ nameB.take 30, c < 0x80 := by decide
  have hA : ∀ d : Bytes, d ≠ [] → Fits33 nameA d := fun d hd => ⟨fA.1, fA.2, hd⟩
  have hB : ∀ d : Bytes, d ≠ [] → Fits33 nameB d := fun d hd => ⟨fB.1, fB.2, hd⟩
  refine (C74_history_partial sampleHistory33 blank33 [] holds_blank33 (dos33File_blank _) (by decide) (fun _ _ => rfl) ?_).2.1
  refine historyLegal_within33 (N := [nameA, nameB]) (by decide) _ _ _ ⟨List.Pairwise.nil, fun k hk => by cases hk⟩ ?_
  intro y hy
  obtain ⟨x, hx, rfl⟩ := List.mem_map.mp hy
  simp only [sampleHistory33, List.mem_cons, List.not_mem_nil, or_false] at hx
  rcases hx with rfl | rfl | rfl | rfl | rfl | rfl <;> simp [Cmd.Within33, hA, hB, dataA_ne, dataB_ne]

/-- with a library that finds an archive in it, the blank disk is a set of ROMs -/
example : ∃ r t, detect { magicLibs with zip := fun _ => .ok (some [⟨16, List.replicate 16 7⟩, ⟨0, []⟩]) } blank33 =
    .ok (.mame (List.replicate 16 7) r, t) := by
  have := C74_zip_hides mounted_blank33 (L := { magicLibs with zip := fun _ => .ok (some [⟨16, List.replicate 16 7⟩, ⟨0, []⟩]) })
    (by rw [mount33_bytes]; exact dos33File_blank _) rfl (by decide) (by decide)
  rw [mount33_bytes] at this
  exact this

end Atr
