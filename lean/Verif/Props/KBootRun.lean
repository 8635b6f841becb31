import Verif.Lemmas.KBootRun
import Verif.Props.KBoot
/-!
# C85: booting a KBoot disk

The disk made by `create_boot_image` is put into an Atari (`Spec/Cpu6502.lean`), the operating system reads the boot sectors and starts
the boot code; the 6502 then runs the bytes of `xexboot_header`.
-/
namespace Atr

theorem getD_splice (l : Bytes) (a : Nat) (new : Bytes) (k : Nat) (h : a + new.length ≤ l.length) :
    (splice l a new).getD k 0 = if a ≤ k ∧ k < a + new.length then new.getD (k - a) 0 else l.getD k 0 := by
  rw [List.getD_eq_getElem?_getD, getElem?_splice _ _ _ _ h]
  by_cases h1 : k < a
  · rw [if_pos h1, if_neg (by omega), List.getD_eq_getElem?_getD]
  · rw [if_neg h1]
    by_cases h2 : k < a + new.length
    · rw [if_pos h2, if_pos (by omega), List.getD_eq_getElem?_getD]
    · rw [if_neg h2, if_neg (by omega), List.getD_eq_getElem?_getD]

theorem insertBytes_getD (data : Bytes) (offset : Nat) (string : Bytes) (color : UInt8) (hl : data.length = 384) (hs : string.length ≤ 20) (hf : offset + 20 ≤ 384)
    {k : Nat} (hk : k < offset) : (insertBytes data offset string color).getD k 0 = data.getD k 0 := by
  unfold insertBytes
  rw [getD_splice _ _ _ _ (by rw [List.length_map]; omega), if_neg (by omega)]

/-- the boot sectors: the boot code with the length of the executable in it -/
theorem kbBoot_getD (n k : Nat) (hk : k < 268) : (kbBoot n).getD k 0 = if k = 9 then UInt8.ofNat n else if k = 10 then UInt8.ofNat (n / 256) else xexbootHeader.getD k 0 := by
  have l0 : (splice xexbootHeader 9 (enc16 n)).length = 300 := by
    rw [length_splice _ _ _ (by rw [xexbootHeader_length]; simp [enc16]), xexbootHeader_length]
  have hz : (List.replicate 384 (0 : UInt8)).length = 384 := List.length_replicate
  have l1 : (splice (List.replicate 384 (0 : UInt8)) 0 (splice xexbootHeader 9 (enc16 n))).length = 384 := by
    rw [length_splice _ _ _ (by rw [l0, hz]; decide), hz]
  unfold kbBoot
  simp only
  obtain ⟨a1, -⟩ := insertBytes_facts _ 268 kbTitle 0xc0 l1 (by decide) (by decide) (by decide)
  rw [insertBytes_getD _ 308 kbAuthor _ a1 (by decide) (by decide) (by omega), insertBytes_getD _ 268 kbTitle _ l1 (by decide) (by decide) hk,
    getD_splice _ _ _ _ (by rw [l0, hz]; decide), if_pos (by rw [l0]; omega), Nat.sub_zero,
    getD_splice _ _ _ _ (by rw [xexbootHeader_length]; simp [enc16])]
  have h2 : (enc16 n).length = 2 := by simp [enc16]
  rw [h2]
  by_cases h9 : k = 9
  · subst h9; rfl
  · by_cases h10 : k = 10
    · subst h10; rfl
    · rw [if_neg (by omega), if_neg h9, if_neg h10]

/-- the bytes of sector `n` -/
theorem atrSector_append {hd body : Bytes} (hh : hd.length = 16) (hw : word (hd.getD 4 0) (hd.getD 5 0) = 128) {n : Nat} (h1 : 1 ≤ n) (h2 : 128 * n ≤ body.length) :
    ∃ d, atrSector (hd ++ body) n = some d ∧ ∀ t < 128, d.getD t 0 = body.getD (128 * (n - 1) + t) 0 := by
  unfold atrSector
  have e4 : ∀ k < 16, (hd ++ body).getD k 0 = hd.getD k 0 := fun k hk => by
    rw [List.getD_eq_getElem?_getD, List.getElem?_append_left (by omega), List.getD_eq_getElem?_getD]
  rw [if_pos ⟨by rw [e4 _ (by omega), e4 _ (by omega)]; exact hw, h1, by rw [List.length_append]; omega⟩]
  refine ⟨_, rfl, fun t ht => ?_⟩
  rw [List.getD_eq_getElem?_getD, List.getElem?_take, if_pos ht, List.getElem?_drop, List.getElem?_append_right (by omega), List.getD_eq_getElem?_getD]
  congr 2
  omega

/-- `create_boot_image` for an executable below 64K gives sixteen bytes and the boot sectors with the executable -/
theorem createBootImage_bytes {segs : List Seg} {r : Option Nat} {img : Bytes} (h : createBootImage segs r = .ok img) :
    ∃ l x hd, xexSegments segs none = .ok l ∧ x = [0xff, 0xff] ++ l.flatMap xexPiece ∧ hd.length = 16 ∧
      (x.length < 65536 → word (hd.getD 4 0) (hd.getD 5 0) = 128) ∧ img = hd ++ addXexboot x := by
  unfold createBootImage getXex at h
  cases hl : xexSegments segs none with
  | error e => rw [hl] at h; cases h
  | ok l =>
    rw [hl] at h
    simp only at h
    obtain ⟨hh, k1, k2, k3⟩ := C16_add_atr_header (addXexboot ([0xff, 0xff] ++ l.flatMap xexPiece))
    rw [k2] at h
    injection h with h
    refine ⟨l, _, hh.encode, rfl, rfl, by simp [AHeader.encode, enc16, enc32], fun hlen => ?_, h.symm⟩
    have hal := addXexboot_length ([0xff, 0xff] ++ l.flatMap xexPiece)
    rw [checkSize_plain _ (by omega) (by omega) (by omega)] at k1
    have k1 := Except.ok.inj k1
    rw [← k1]
    simp [AHeader.encode, enc16, word]

/-- the size of an executable made of segments -/
def xexSize (l : List Seg) : Nat := 2 + (l.map fun s => 4 + s.data.length).sum

theorem xexSize_eq (l : List Seg) : ([0xff, 0xff] ++ l.flatMap xexPiece).length = xexSize l := by
  unfold xexSize
  induction l with
  | nil => rfl
  | cons s l ih =>
    simp only [List.flatMap_cons, List.length_append, List.map_cons, List.sum_cons] at ih ⊢
    have : (xexPiece s).length = 4 + s.data.length := by simp [xexPiece, enc16]; omega
    omega

/-- what is on the disk and in memory when the boot code starts -/
theorem boot_disk {A : Atari} {segs l : List Seg} {r : Option Nat} {img : Bytes} {c : Cpu} (hi : createBootImage segs r = .ok img)
    (hl : xexSegments segs none = .ok l) (hsize : xexSize l < 65536) (hdisk : A.disk = atrSector img) (hboot : Booted A c) :
    ∃ x, x = [0xff, 0xff] ++ l.flatMap xexPiece ∧ x.length < 0x10000 ∧ OnDisk A x ∧ Code c.mem ∧ word (c.mem 0x709) (c.mem 0x70a) = x.length ∧ c.pc = 0x706 := by
  obtain ⟨l', x, hd, g1, g2, g3, g5, g4⟩ := createBootImage_bytes hi
  rw [hl] at g1
  injection g1 with g1
  subst g1
  have hxl : x.length < 65536 := by rw [g2, xexSize_eq]; exact hsize
  have hal := addXexboot_length x
  have hkl := (kbBoot_facts x.length).1
  have hsec : ∀ n, 1 ≤ n → 128 * n ≤ 384 + (x.length + 127) / 128 * 128 →
      ∃ d, A.disk n = some d ∧ ∀ t < 128, d.getD t 0 = (addXexboot x).getD (128 * (n - 1) + t) 0 := by
    intro n h1 h2
    rw [hdisk, g4]
    exact atrSector_append g3 (g5 hxl) h1 (by omega)
  have hfront : ∀ k < 384, (addXexboot x).getD k 0 = (kbBoot x.length).getD k 0 := by
    intro k hk
    unfold addXexboot
    rw [List.getD_eq_getElem?_getD, List.getElem?_append_left (by omega), List.getD_eq_getElem?_getD]
  -- what is on the disk
  have hx : OnDisk A x := by
    intro j hj
    obtain ⟨d, d1, d2⟩ := hsec (4 + j) (by omega) (by omega)
    refine ⟨d, d1, fun t ht => ?_⟩
    rw [d2 t ht]
    unfold addXexboot
    rw [List.getD_eq_getElem?_getD, List.getElem?_append_right (by omega), hkl, List.getD_eq_getElem?_getD,
      show 128 * (4 + j - 1) + t - 384 = 128 * j + t by omega]
    by_cases hin : 128 * j + t < x.length
    · rw [List.getElem?_append_left hin]
    · rw [List.getElem?_append_right (by omega), List.getElem?_eq_none (l := x) (by omega), List.getElem?_replicate]
      split <;> rfl
  -- what is in memory
  obtain ⟨b, b1, b2, b3⟩ := hboot.loaded
  obtain ⟨b', b1', b4⟩ := hsec 1 (by omega) (by omega)
  rw [b1] at b1'
  injection b1' with b1'
  subst b1'
  have f : ∀ k < 128, k ≠ 9 → k ≠ 10 → b.getD k 0 = xexbootHeader.getD k 0 := by
    intro k hk h9 h10
    rw [b4 k hk, show 128 * (1 - 1) + k = k by omega, hfront _ (by omega), kbBoot_getD _ _ (by omega), if_neg h9, if_neg h10]
  have f1 : b.getD 1 0 = 3 := (f 1 (by omega) (by omega) (by omega)).trans rfl
  have f2 : b.getD 2 0 = 0 := (f 2 (by omega) (by omega) (by omega)).trans rfl
  have f3 : b.getD 3 0 = 7 := (f 3 (by omega) (by omega) (by omega)).trans rfl
  rw [f1, f2, f3] at b3
  rw [f2, f3] at b2
  have hmem : ∀ k < 384, c.mem (0x700 + k) = (kbBoot x.length).getD k 0 := by
    intro k hk
    obtain ⟨d, d1, d2⟩ := b3 (k / 128) (by show _ < 3; omega)
    obtain ⟨d', d1', d3⟩ := hsec (k / 128 + 1) (by omega) (by omega)
    rw [d1] at d1'
    injection d1' with d1'
    subst d1'
    have := d2 (k % 128) (Nat.mod_lt _ (by omega))
    rw [show word 0 7 + 128 * (k / 128) + k % 128 = 0x700 + k by rw [show word 0 7 = 0x700 from rfl]; omega] at this
    rw [this, d3 _ (Nat.mod_lt _ (by omega)), show 128 * (k / 128 + 1 - 1) + k % 128 = k by omega, hfront _ (by omega)]
  have hcode : Code c.mem := by
    intro p h1 h2 h3 h4
    have := hmem (p - 0x700) (by omega)
    rw [show 0x700 + (p - 0x700) = p by omega] at this
    rw [this, kbBoot_getD _ _ (by omega), if_neg (by omega), if_neg (by omega)]
  have hcount : word (c.mem 0x709) (c.mem 0x70a) = x.length := by
    have e9 := hmem 9 (by omega)
    have e10 := hmem 10 (by omega)
    rw [kbBoot_getD _ _ (by omega), if_pos rfl] at e9
    rw [kbBoot_getD _ _ (by omega), if_neg (by omega), if_pos rfl] at e10
    rw [e9, e10, word_ofNat hxl]
  exact ⟨x, g2, hxl, hx, hcode, hcount, b2⟩

/-- **C85, with init routines.** A boot disk made from segments works: when the Atari has read its boot sectors, the boot code loads the
segments one after the other into memory, calls the routine whose address a segment has put into 0x2e2, and starts the program at the
address found in 0x2e0 (`Loads`).  The executable must be smaller than 64K (otherwise the length field wraps, C21), no segment may be
empty, reach address 0xffff or use the memory of the loader or of the operating system, and init routines must return and leave the
memory of the loader alone. -/
theorem C85_init_partial {A : Atari} {segs l : List Seg} {r : Option Nat} {img : Bytes} {c : Cpu} (hi : createBootImage segs r = .ok img)
    (hl : xexSegments segs none = .ok l) (hsize : xexSize l < 65536) (ha : Apart A) (hload : ∀ s ∈ l, Loadable A s)
    (hdisk : A.disk = atrSector img) (hboot : Booted A c) (hs : 0x84 ≤ c.s.toNat) {inits : Prop} {m : Nat → UInt8} (hm : Loads A inits (bootSetup c.mem) l m) :
    ∃ e, A.Runs c e ∧ e.pc = word (e.mem 0x2e0) (e.mem 0x2e1) ∧ ∀ p, Free A inits p → e.mem p = m p := by
  obtain ⟨x, g2, hxl, hx, hcode, hcount, b2⟩ := boot_disk hi hl hsize hdisk hboot
  exact boot_code ha hx hxl hload g2 hcode hcount b2 hs hm

/-- addresses the boot code sets for the operating system and the display before it loads anything -/
def Touched (p : Nat) : Prop := p = 0x9 ∨ p = 0x230 ∨ p = 0x231 ∨ p = 0x244 ∨ p = 0xd402 ∨ p = 0xd403

/-- **C85.** Without init addresses: all segments are in memory when the program is started. -/
theorem C85_boot_partial {A : Atari} {segs l : List Seg} {r : Option Nat} {img : Bytes} {c : Cpu} (hi : createBootImage segs r = .ok img)
    (hl : xexSegments segs none = .ok l) (hsize : xexSize l < 65536) (ha : Apart A) (hload : ∀ s ∈ l, Loadable A s)
    (hno : ∀ s ∈ l, ∀ p, s.origin ≤ p → p < s.origin + s.data.length → p ≠ 0x2e2 ∧ p ≠ 0x2e3)
    (hdisk : A.disk = atrSector img) (hboot : Booted A c) (hs : 0x84 ≤ c.s.toNat) :
    ∃ e, A.Runs c e ∧ e.pc = word (e.mem 0x2e0) (e.mem 0x2e1) ∧
      ∀ p, ¬ LoaderMem A p → p ≠ 0x2e2 → p ≠ 0x2e3 → (∃ s ∈ l, s.origin ≤ p ∧ p < s.origin + s.data.length) ∨ ¬ Touched p → e.mem p = loadSegs c.mem l p := by
  obtain ⟨e, r1, p1, m1⟩ := C85_init_partial hi hl hsize ha hload hdisk hboot hs (loads_plain A False l _ ⟨rfl, rfl⟩ hno)
  refine ⟨e, r1, p1, fun p hp h2 h3 h => ?_⟩
  rw [m1 p ⟨hp, fun _ h => h⟩]
  rcases h with h | h
  · exact loadSegs_covered l h
  · refine loadSegs_congr l ?_
    unfold Touched at h
    unfold bootSetup
    rw [if_neg (by omega), if_neg (by omega), if_neg (by omega), if_neg (by omega), if_neg (by omega), if_neg (by omega), if_neg h2, if_neg h3]

/-- loading segments and looking at the last one that covers an address are the same -/
theorem loadSegs_memAt (m : Nat → UInt8) (l : List Seg) {p : Nat} (h : ∃ s ∈ l, s.origin ≤ p ∧ p < s.origin + s.data.length) : loadSegs m l p = memAt l p := by
  have key : ∀ l : List Seg, ((∃ s ∈ l.reverse, s.origin ≤ p ∧ p < s.origin + s.data.length) → loadSegs m l.reverse p = memAt l.reverse p) := by
    intro l
    induction l with
    | nil => rintro ⟨s, hs, _⟩; cases hs
    | cons s l ih =>
      intro hex
      rw [List.reverse_cons] at hex ⊢
      have e : loadSegs m (l.reverse ++ [s]) p = loadSeg (loadSegs m l.reverse) s p := by
        unfold loadSegs; rw [List.foldl_append]; rfl
      rw [e]
      unfold loadSeg memAt
      rw [List.reverse_append, List.reverse_cons, List.reverse_nil, List.nil_append, List.singleton_append, List.find?_cons]
      by_cases hin : s.origin ≤ p ∧ p < s.origin + s.data.length
      · rw [if_pos hin]; simp [hin.1, hin.2]
      · rw [if_neg hin]
        have hf : (decide (s.origin ≤ p) && decide (p < s.origin + s.data.length)) = false := by simp; omega
        rw [hf]
        simp only
        refine (ih ?_).trans rfl
        obtain ⟨t, ht, hin'⟩ := hex
        rcases List.mem_append.mp ht with ht | ht
        · exact ⟨t, ht, hin'⟩
        · rw [List.mem_singleton] at ht; subst ht; exact absurd hin' hin
  have := key l.reverse
  rw [List.reverse_reverse] at this
  exact this h

/-- the addresses a segment covers -/
def Seg.covers (s : Seg) (p : Nat) : Prop := s.origin ≤ p ∧ p < s.origin + s.data.length

/-- **C85, the usual case**: with no segment at the run address 0x2e0 the program is started at the first segment, whatever run address
was asked for (C22), with all its bytes in place (`memAt`: where segments overlap the last one counts). -/
theorem C85_start {A : Atari} {s : Seg} {segs : List Seg} {r : Option Nat} {img : Bytes} {c : Cpu} (hi : createBootImage (s :: segs) r = .ok img)
    (hsize : xexSize (s :: segs) + 6 < 65536) (ha : Apart A) (hload : ∀ t ∈ s :: segs, Loadable A t)
    (hno : ∀ t ∈ s :: segs, ∀ p, t.covers p → ¬ (0x2e0 ≤ p ∧ p ≤ 0x2e3))
    (hdisk : A.disk = atrSector img) (hboot : Booted A c) (hs : 0x84 ≤ c.s.toNat) :
    ∃ e, A.Runs c e ∧ e.pc = s.origin ∧ ∀ t ∈ s :: segs, ∀ p, t.covers p → e.mem p = memAt (s :: segs) p := by
  have hx : xexSegments (s :: segs) none = .ok (⟨0x2e0, enc16 s.origin⟩ :: s :: segs) := by
    unfold xexSegments
    rw [if_neg]
    intro h
    rw [List.any_eq_true] at h
    obtain ⟨t, ht, he⟩ := h
    have he' : t.origin = 0x2e0 := by simpa using he
    have := List.length_pos_iff.mpr (hload t ht).ne
    exact hno t ht 0x2e0 ⟨by omega, by omega⟩ (by omega)
  have hvec : ∀ p, 0x2e0 ≤ p → p ≤ 0x2e1 → ¬ LoaderMem A p := by
    rintro p h1 h2 ((h | h) | h)
    · exact ha.vectors p h1 (by omega) h
    · omega
    · omega
  have h2 : (enc16 s.origin).length = 2 := by simp [enc16]
  obtain ⟨e, r1, p1, m1⟩ := C85_boot_partial hi hx (by
      unfold xexSize at hsize ⊢
      simp only [List.map_cons, List.sum_cons, h2] at hsize ⊢
      omega) ha (by
      intro t ht
      rcases List.mem_cons.mp ht with rfl | ht
      · exact ⟨by simp [enc16], by rw [h2]; show 0x2e0 + 2 < _; omega, fun p g1 g2 => hvec p g1 (by rw [h2] at g2; exact Nat.le_of_lt_succ g2)⟩
      · exact hload t ht) (by
      intro t ht p g1 g2
      rcases List.mem_cons.mp ht with rfl | ht
      · rw [h2] at g2
        have g2 : p < 0x2e0 + 2 := g2
        omega
      · have := hno t ht p ⟨g1, g2⟩
        omega) hdisk hboot hs
  have hmem : ∀ p, (∃ t ∈ s :: segs, t.covers p) → memAt (⟨0x2e0, enc16 s.origin⟩ :: s :: segs) p = memAt (s :: segs) p := by
    intro p hp
    rw [← loadSegs_memAt (loadSeg (fun _ => 0) ⟨0x2e0, enc16 s.origin⟩) (s :: segs) hp, ← loadSegs_memAt (fun _ => 0) (⟨0x2e0, enc16 s.origin⟩ :: s :: segs)]
    · rfl
    · obtain ⟨t, ht, g⟩ := hp
      exact ⟨t, List.mem_cons_of_mem _ ht, g⟩
  have hrun : ∀ p, 0x2e0 ≤ p → p ≤ 0x2e1 → e.mem p = (enc16 s.origin).getD (p - 0x2e0) 0 := by
    intro p g1 g2
    rw [m1 p (hvec p g1 g2) (by omega) (by omega) (.inl ⟨_, List.mem_cons_self .., g1, by rw [h2]; show _ < 0x2e0 + 2; omega⟩)]
    have key : ∀ (l : List Seg) (m : Nat → UInt8), (∀ t ∈ l, ¬ t.covers p) → loadSegs m l p = m p := by
      intro l
      induction l with
      | nil => intro m _; rfl
      | cons t l ih =>
        intro m hl
        show loadSegs (loadSeg m t) l p = m p
        rw [ih _ (fun u hu => hl u (List.mem_cons_of_mem _ hu))]
        exact if_neg (hl t (List.mem_cons_self ..))
    show loadSegs (loadSeg c.mem ⟨0x2e0, enc16 s.origin⟩) (s :: segs) p = _
    rw [key]
    · unfold loadSeg
      rw [if_pos ⟨g1, by rw [h2]; show _ < 0x2e0 + 2; omega⟩]
    · intro t ht h
      exact hno t ht p h (by omega)
  refine ⟨e, r1, ?_, fun t ht p hp => ?_⟩
  · rw [p1, hrun _ (by omega) (by omega), hrun _ (by omega) (by omega)]
    have := (hload s (List.mem_cons_self ..)).fits
    exact word_ofNat (by omega)
  · have := hno t ht p hp
    rw [m1 p ((hload t ht).clear p hp.1 hp.2) (by omega) (by omega) (.inl ⟨t, List.mem_cons_of_mem _ ht, hp⟩), loadSegs_memAt _ _ ⟨t, List.mem_cons_of_mem _ ht, hp⟩, hmem p ⟨t, ht, hp⟩]

/-! A machine in which all this happens: the operating system keeps the first 64 bytes and page 2 up to 0x2df for itself. -/

def someAtari (img : Bytes) : Atari := { disk := atrSector img, os := fun p => p < 0x40 ∨ (0x200 ≤ p ∧ p < 0x2e0), after := fun c => { c with mem := fun _ => 0x55 } }

theorem someAtari_apart (img : Bytes) : Apart (someAtari img) := by
  constructor <;> (intro p h1 h2; show ¬ (p < 0x40 ∨ (0x200 ≤ p ∧ p < 0x2e0)); omega)

theorem exists_cpu (s : UInt8) (pc : Nat) (m : Nat → UInt8) : ∃ c : Cpu, c.pc = pc ∧ c.s = s ∧ ∀ p, c.mem p = m p :=
  ⟨⟨0, 0, 0, s, false, false, false, pc, m⟩, rfl, rfl, fun _ => rfl⟩

/-- the machine after reading the boot sectors of a disk made from segments -/
theorem someAtari_boots {segs l : List Seg} {r : Option Nat} {img : Bytes} (hi : createBootImage segs r = .ok img) (hl : xexSegments segs none = .ok l)
    (hsize : xexSize l < 65536) : ∃ c, Booted (someAtari img) c ∧ 0x84 ≤ c.s.toNat := by
  obtain ⟨l', x, hd, g1, g2, g3, g5, g4⟩ := createBootImage_bytes hi
  rw [hl] at g1
  injection g1 with g1
  subst g1
  have hxl : x.length < 65536 := by rw [g2, xexSize_eq]; exact hsize
  have hal := addXexboot_length x
  have hsec : ∀ n, 1 ≤ n → 128 * n ≤ 384 → ∃ d, atrSector img n = some d ∧ ∀ t < 128, d.getD t 0 = (addXexboot x).getD (128 * (n - 1) + t) 0 := by
    intro n h1 h2
    rw [g4]
    exact atrSector_append g3 (g5 hxl) h1 (by omega)
  obtain ⟨b, b1, b2⟩ := hsec 1 (by omega) (by omega)
  have hb : ∀ k, k = 1 ∨ k = 2 ∨ k = 3 → b.getD k 0 = xexbootHeader.getD k 0 := by
    intro k hk
    have hkl := (kbBoot_facts x.length).1
    rw [b2 k (by omega), show 128 * (1 - 1) + k = k by omega]
    unfold addXexboot
    rw [List.getD_eq_getElem?_getD, List.getElem?_append_left (by omega), ← List.getD_eq_getElem?_getD, kbBoot_getD _ _ (by omega), if_neg (by omega), if_neg (by omega)]
  have f1 : b.getD 1 0 = 3 := (hb 1 (by omega)).trans rfl
  have f2 : b.getD 2 0 = 0 := (hb 2 (by omega)).trans rfl
  have f3 : b.getD 3 0 = 7 := (hb 3 (by omega)).trans rfl
  obtain ⟨c, c1, c2, c3⟩ : ∃ c : Cpu, c.pc = 0x706 ∧ c.s = 0xf0 ∧ ∀ p, c.mem p = (addXexboot x).getD (p - 0x700) 0 :=
    exists_cpu 0xf0 0x706 fun p => (addXexboot x).getD (p - 0x700) 0
  refine ⟨c, ⟨b, b1, by rw [f2, f3, c1]; rfl, ?_⟩, by rw [c2]; decide⟩
  rw [f1, f2, f3]
  intro k hk
  have hk : k < 3 := hk
  obtain ⟨d, d1, d2⟩ := hsec (k + 1) (by omega) (by omega)
  refine ⟨d, d1, fun i hi => ?_⟩
  rw [d2 i hi]
  have hw : word 0 7 = 0x700 := rfl
  rw [c3, hw, show 0x700 + 128 * k + i - 0x700 = 128 * (k + 1 - 1) + i by omega]

/-- segments above the loader -/
theorem loadable_high {img : Bytes} {s : Seg} (h1 : s.data ≠ []) (h2 : 0x800 ≤ s.origin) (h3 : s.origin + s.data.length < 0xd000) : Loadable (someAtari img) s := by
  refine ⟨h1, by omega, fun p g1 g2 => ?_⟩
  show ¬ (((p < 0x40 ∨ (0x200 ≤ p ∧ p < 0x2e0)) ∨ _) ∨ _)
  omega

/-- segments in the vectors -/
theorem loadable_vector {img : Bytes} {s : Seg} (h1 : s.data ≠ []) (h2 : 0x2e0 ≤ s.origin) (h3 : s.origin + s.data.length ≤ 0x2e4) : Loadable (someAtari img) s := by
  refine ⟨h1, by omega, fun p g1 g2 => ?_⟩
  show ¬ (((p < 0x40 ∨ (0x200 ≤ p ∧ p < 0x2e0)) ∨ _) ∨ _)
  omega

/-- memory that neither the loader nor the operating system needs -/
theorem free_high {img : Bytes} {p : Nat} (h1 : 0x800 ≤ p) (h2 : p < 0xd000 ∨ 0xe000 ≤ p) : ¬ LoaderMem (someAtari img) p := by
  show ¬ (((p < 0x40 ∨ (0x200 ≤ p ∧ p < 0x2e0)) ∨ _) ∨ _)
  omega

/-- **C85 refuted for empty segments.** The loader stores a byte before it looks at the end address, so behind an empty segment it is
one byte off: the program is started, but the segment that follows was not loaded. -/
theorem C85_refuted_empty : ∃ segs img, createBootImage segs none = .ok img ∧ segs = [⟨0x2000, []⟩, ⟨0x4030, [1, 2, 3]⟩] ∧
    (∃ c, Booted (someAtari img) c ∧ 0x84 ≤ c.s.toNat) ∧
    ∀ c, Booted (someAtari img) c → 0x84 ≤ c.s.toNat → ∃ e, (someAtari img).Runs c e ∧ e.pc = 0x2000 ∧ ∀ p, 0x4030 ≤ p → p < 0x4033 → e.mem p = c.mem p := by
  obtain ⟨img, hi, hk⟩ := C21_partial (segs := [⟨0x2000, []⟩, ⟨0x4030, [1, 2, 3]⟩]) (r := none) (x := _) rfl (by decide)
  have hl : xexSegments [⟨0x2000, []⟩, ⟨0x4030, [1, 2, 3]⟩] none = .ok [⟨0x2e0, [0, 0x20]⟩, ⟨0x2000, []⟩, ⟨0x4030, [1, 2, 3]⟩] := by rfl
  refine ⟨_, img, hi, rfl, someAtari_boots hi hl (by decide), fun c hboot hs => ?_⟩
  have ha := someAtari_apart img
  obtain ⟨x, g2, hxl, hx, hcode, hcount, b2⟩ := boot_disk hi hl (by decide) rfl hboot
  have hx0 : x = [0xff, 0xff, 0xe0, 0x02, 0xe1, 0x02, 0x00, 0x20, 0x00, 0x20, 0xff, 0x1f, 0x30, 0x40, 0x32, 0x40, 1, 2, 3] := by rw [g2]; rfl
  have hlen : x.length = 19 := by rw [hx0]; rfl
  obtain ⟨c1, r1, q1, d1, p1, s1, m1⟩ := boot_begin ha hx hxl g2 hcode hcount b2 hs
  obtain ⟨c2, r2, q2, d2, p2, s2, m2⟩ := one_seg ha hx hxl (s := ⟨0x2e0, [0, 0x20]⟩) (loadable_vector (by simp) (by decide) (by decide)) q1 d1 p1 (by rw [s1]; exact hs)
  have hv : ∀ p, 0x2e0 ≤ p → p ≤ 0x2e3 → ¬ LoaderMem (someAtari img) p := fun p h1 h2 => (free_vector ha (b := False) h1 h2).1
  obtain ⟨c3, r3, p3, s3, x3, y3, m3⟩ := next_block (A := someAtari img) q2.code p2
    ⟨by rw [m2 _ (hv _ (by omega) (by omega)), loadSeg_congr (m1 _ (hv _ (by omega) (by omega)))]; simp [loadSeg, bootSetup],
      by rw [m2 _ (hv _ (by omega) (by omega)), loadSeg_congr (m1 _ (hv _ (by omega) (by omega)))]; simp [loadSeg, bootSetup]⟩
  have q3 : Ready x 8 c3 := q2.same x3 y3 fun p _ => by rw [m3]
  have hs3 : 0x84 ≤ c3.s.toNat := by rw [s3, s2, s1]; exact hs
  -- the empty segment
  obtain ⟨c4, r4, q4, p4, s4, v4, m4⟩ := head_block ha hx hxl q3 (by omega) p3 hs3
  rw [show x.getD 8 0 = 0 by rw [hx0]; rfl, show x.getD (8 + 1) 0 = 0x20 by rw [hx0]; rfl] at p4 v4
  obtain ⟨c5, r5, q5, p5, s5, v5, u5, m5⟩ := end_block ha hx hxl q4 (by omega) p4 (by rw [s4]; exact hs3)
  rw [show x.getD (8 + 2) 0 = 0xff by rw [hx0]; rfl, show x.getD (8 + 2 + 1) 0 = 0x1f by rw [hx0]; rfl] at u5
  obtain ⟨c6, r6, q6, p6, s6, -, -, m6⟩ := one_byte ha hx hxl q5 (by omega) p5 (by rw [s5, s4]; exact hs3) (o := 0x2000) (v5.trans v4) (by omega)
    (by omega) (by omega) (by omega) (by omega)
  rw [u5] at p6
  have p6 : c6.pc = 0x789 := p6
  have z1 : ∀ p, 0x2e0 ≤ p → p ≤ 0x2e3 → c6.mem p = loadSeg (bootSetup c.mem) ⟨0x2e0, [0, 0x20]⟩ p := by
    intro p h1 h2
    rw [m6 p (hv p h1 h2), if_neg (by omega), m5 p (hv p h1 h2), m4 p (hv p h1 h2), m3, m2 p (hv p h1 h2)]
    exact loadSeg_congr (m1 p (hv p h1 h2))
  obtain ⟨c7, r7, p7, s7, x7, y7, m7⟩ := next_block (A := someAtari img) q6.code p6
    ⟨by rw [z1 _ (by omega) (by omega)]; simp [loadSeg, bootSetup], by rw [z1 _ (by omega) (by omega)]; simp [loadSeg, bootSetup]⟩
  have q7 : Ready x 13 c7 := q6.same x7 y7 fun p _ => by rw [m7]
  have hs7 : 0x84 ≤ c7.s.toNat := by rw [s7, s6, s5, s4]; exact hs3
  -- what is taken for the next one
  obtain ⟨c8, r8, q8, p8, s8, v8, m8⟩ := head_block ha hx hxl q7 (by omega) p7 hs7
  rw [show x.getD 13 0 = 0x40 by rw [hx0]; rfl, show x.getD (13 + 1) 0 = 0x32 by rw [hx0]; rfl] at p8 v8
  obtain ⟨c9, r9, q9, p9, s9, v9, u9, m9⟩ := end_block ha hx hxl q8 (by omega) p8 (by rw [s8]; exact hs7)
  rw [show x.getD (13 + 2) 0 = 0x40 by rw [hx0]; rfl, show x.getD (13 + 2 + 1) 0 = 1 by rw [hx0]; rfl] at u9
  obtain ⟨c10, r10, q10, p10, s10, -, -, m10⟩ := one_byte ha hx hxl q9 (by omega) p9 (by rw [s9, s8]; exact hs7) (o := 0x3240) (v9.trans v8) (by omega)
    (by omega) (by omega) (by omega) (by omega)
  rw [u9] at p10
  have p10 : c10.pc = 0x789 := p10
  have z2 : ∀ p, 0x2e0 ≤ p → p ≤ 0x2e3 → c10.mem p = loadSeg (bootSetup c.mem) ⟨0x2e0, [0, 0x20]⟩ p := by
    intro p h1 h2
    rw [m10 p (hv p h1 h2), if_neg (by omega), m9 p (hv p h1 h2), m8 p (hv p h1 h2), m7, z1 p h1 h2]
  obtain ⟨c11, r11, p11, s11, x11, y11, m11⟩ := next_block (A := someAtari img) q10.code p10
    ⟨by rw [z2 _ (by omega) (by omega)]; simp [loadSeg, bootSetup], by rw [z2 _ (by omega) (by omega)]; simp [loadSeg, bootSetup]⟩
  have q11 : Ready x 18 c11 := q10.same x11 y11 fun p _ => by rw [m11]
  have hs11 : 0x84 ≤ c11.s.toNat := by rw [s11, s10, s9, s8]; exact hs7
  -- one byte is left
  obtain ⟨e, r12, p12, m12⟩ := half_head ha hx hxl q11 (by omega) p11 hs11
  refine ⟨e, r1.trans (r2.trans (r3.trans (r4.trans (r5.trans (r6.trans (r7.trans (r8.trans (r9.trans (r10.trans (r11.trans r12)))))))))), ?_, fun p h1 h2 => ?_⟩
  · rw [p12, m11, z2 _ (by omega) (by omega), z2 _ (by omega) (by omega)]
    simp [loadSeg, word]
  · have hf : ¬ LoaderMem (someAtari img) p := free_high (by omega) (by omega)
    rw [m12 p hf, m11, m10 p hf, if_neg (by omega), m9 p hf, m8 p hf, m7, m6 p hf, if_neg (by omega), m5 p hf, m4 p hf, m3, m2 p hf, loadSeg_congr (m1 p hf)]
    unfold loadSeg bootSetup
    rw [if_neg (by simp only [List.length_cons, List.length_nil]; omega), if_neg (by omega), if_neg (by omega), if_neg (by omega), if_neg (by omega), if_neg (by omega),
      if_neg (by omega), if_neg (by omega), if_neg (by omega)]

/-- **C85 refuted for segments that reach 0xffff.** Behind such a segment the pointer is 0 again and never passes the end address: the
rest of the executable goes to address 0 and on, and the segments that follow are not loaded. -/
theorem C85_refuted_top : ∃ segs img, createBootImage segs none = .ok img ∧ segs = [⟨0x2000, [0x60]⟩, ⟨0xfffe, [7, 8]⟩, ⟨0x4030, [1, 2, 3]⟩] ∧
    (∃ c, Booted (someAtari img) c ∧ 0x84 ≤ c.s.toNat) ∧
    ∀ c, Booted (someAtari img) c → 0x84 ≤ c.s.toNat → ∃ e, (someAtari img).Runs c e ∧ e.pc = 0x2000 ∧ e.mem 0x2000 = 0x60 ∧ ∀ p, 0x4030 ≤ p → p < 0x4033 → e.mem p = c.mem p := by
  obtain ⟨img, hi, hk⟩ := C21_partial (segs := [⟨0x2000, [0x60]⟩, ⟨0xfffe, [7, 8]⟩, ⟨0x4030, [1, 2, 3]⟩]) (r := none) (x := _) rfl (by decide)
  have hl : xexSegments [⟨0x2000, [0x60]⟩, ⟨0xfffe, [7, 8]⟩, ⟨0x4030, [1, 2, 3]⟩] none = .ok [⟨0x2e0, [0, 0x20]⟩, ⟨0x2000, [0x60]⟩, ⟨0xfffe, [7, 8]⟩, ⟨0x4030, [1, 2, 3]⟩] := by rfl
  refine ⟨_, img, hi, rfl, someAtari_boots hi hl (by decide), fun c hboot hs => ?_⟩
  have ha := someAtari_apart img
  obtain ⟨x, g2, hxl, hx, hcode, hcount, b2⟩ := boot_disk hi hl (by decide) rfl hboot
  have hx0 : x = [0xff, 0xff, 0xe0, 0x02, 0xe1, 0x02, 0x00, 0x20, 0x00, 0x20, 0x00, 0x20, 0x60, 0xfe, 0xff, 0xff, 0xff, 7, 8, 0x30, 0x40, 0x32, 0x40, 1, 2, 3] := by rw [g2]; rfl
  have hlen : x.length = 26 := by rw [hx0]; rfl
  have hv : ∀ p, 0x2e0 ≤ p → p ≤ 0x2e3 → ¬ LoaderMem (someAtari img) p := fun p h1 h2 => (free_vector ha (b := False) h1 h2).1
  obtain ⟨c1, r1, q1, d1, p1, s1, m1⟩ := boot_begin ha hx hxl g2 hcode hcount b2 hs
  obtain ⟨c2, r2, q2, d2, p2, s2, m2⟩ := one_seg ha hx hxl (s := ⟨0x2e0, [0, 0x20]⟩) (loadable_vector (by simp) (by decide) (by decide)) q1 d1 p1 (by rw [s1]; exact hs)
  obtain ⟨c3, r3, p3, s3, x3, y3, m3⟩ := next_block (A := someAtari img) q2.code p2
    ⟨by rw [m2 _ (hv _ (by omega) (by omega)), loadSeg_congr (m1 _ (hv _ (by omega) (by omega)))]; simp [loadSeg, bootSetup],
      by rw [m2 _ (hv _ (by omega) (by omega)), loadSeg_congr (m1 _ (hv _ (by omega) (by omega)))]; simp [loadSeg, bootSetup]⟩
  have q3 : Ready x 8 c3 := q2.same x3 y3 fun p _ => by rw [m3]
  have hs3 : 0x84 ≤ c3.s.toNat := by rw [s3, s2, s1]; exact hs
  obtain ⟨c4, r4, q4, d4, p4, s4, m4⟩ := one_seg ha hx hxl (s := ⟨0x2000, [0x60]⟩) (loadable_high (by simp) (by decide) (by decide)) q3 d2 p3 hs3
  have z1 : ∀ p, 0x2e0 ≤ p → p ≤ 0x2e3 → c4.mem p = loadSeg (bootSetup c.mem) ⟨0x2e0, [0, 0x20]⟩ p := by
    intro p h1 h2
    rw [m4 p (hv p h1 h2)]
    unfold loadSeg
    rw [if_neg (by simp only [List.length_cons, List.length_nil]; omega), m3, m2 p (hv p h1 h2)]
    exact loadSeg_congr (m1 p (hv p h1 h2))
  obtain ⟨c5, r5, p5, s5, x5, y5, m5⟩ := next_block (A := someAtari img) q4.code p4
    ⟨by rw [z1 _ (by omega) (by omega)]; simp [loadSeg, bootSetup], by rw [z1 _ (by omega) (by omega)]; simp [loadSeg, bootSetup]⟩
  have q5 : Ready x 13 c5 := q4.same x5 y5 fun p _ => by rw [m5]
  have hs5 : 0x84 ≤ c5.s.toNat := by rw [s5, s4]; exact hs3
  -- the segment at the top
  obtain ⟨c6, r6, q6, p6, s6, v6, m6⟩ := head_block ha hx hxl q5 (by omega) p5 hs5
  rw [show x.getD 13 0 = 0xfe by rw [hx0]; rfl, show x.getD (13 + 1) 0 = 0xff by rw [hx0]; rfl] at p6 v6
  obtain ⟨c7, r7, q7, p7, s7, v7, u7, m7⟩ := end_block ha hx hxl q6 (by omega) p6 (by rw [s6]; exact hs5)
  rw [show x.getD (13 + 2) 0 = 0xff by rw [hx0]; rfl, show x.getD (13 + 2 + 1) 0 = 0xff by rw [hx0]; rfl] at u7
  have u7 : word (c7.mem 0x45) (c7.mem 0x46) = 0xffff := u7
  have hs7 : 0x84 ≤ c7.s.toNat := by rw [s7, s6]; exact hs5
  obtain ⟨c8, r8, q8, p8, s8, v8, u8, m8⟩ := one_byte ha hx hxl q7 (by omega) p7 hs7 (o := 0xfffe) (v7.trans v6) (by omega) (by omega) (by omega) (by omega) (by omega)
  rw [u7, if_pos (by omega)] at p8
  obtain ⟨c9, r9, q9, p9, s9, v9, u9, m9⟩ := one_byte ha hx hxl q8 (by omega) p8 (by rw [s8]; exact hs7) (o := 0xffff) v8 (by omega) (by omega) (by omega) (by omega) (by omega)
  rw [u8, u7, if_pos (by omega)] at p9
  obtain ⟨e, r10, p10, m10⟩ := wrapped ha hx hxl 7 0 19 c9 q9 (by omega) (by omega) p9 (by rw [s9, s8]; exact hs7) v9 (by rw [u9, u8, u7])
  have z2 : ∀ p, ¬ LoaderMem (someAtari img) p → p < 0xfffe → c9.mem p = c4.mem p := by
    intro p h1 h2
    rw [m9 p h1, if_neg (by omega), m8 p h1, if_neg (by omega), m7 p h1, m6 p h1, m5]
  refine ⟨e, r1.trans (r2.trans (r3.trans (r4.trans (r5.trans (r6.trans (r7.trans (r8.trans (r9.trans r10)))))))), ?_, ?_, fun p h1 h2 => ?_⟩
  · rw [p10, z2 _ (hv _ (by omega) (by omega)) (by omega), z2 _ (hv _ (by omega) (by omega)) (by omega), z1 _ (by omega) (by omega), z1 _ (by omega) (by omega)]
    simp [loadSeg, word]
  · have hf : ¬ LoaderMem (someAtari img) 0x2000 := free_high (by omega) (by omega)
    rw [m10 _ hf (by omega), z2 _ hf (by omega), m4 _ hf]
    simp [loadSeg]
  · have hf : ¬ LoaderMem (someAtari img) p := free_high (by omega) (by omega)
    rw [m10 p hf (by omega), z2 p hf (by omega), m4 p hf]
    unfold loadSeg
    rw [if_neg (by simp only [List.length_cons, List.length_nil]; omega), m3, m2 p hf, loadSeg_congr (m1 p hf)]
    unfold loadSeg bootSetup
    rw [if_neg (by simp only [List.length_cons, List.length_nil]; omega), if_neg (by omega), if_neg (by omega), if_neg (by omega), if_neg (by omega), if_neg (by omega),
      if_neg (by omega), if_neg (by omega), if_neg (by omega)]

/-- two segments, the second written over the end of the first; asked to start at 0x2001, started at 0x2000 -/
example : ∃ img c e, createBootImage [⟨0x2000, [0xa9, 1, 2, 3]⟩, ⟨0x2002, [7, 8, 9]⟩] (some 0x2001) = .ok img ∧ Booted (someAtari img) c ∧ (someAtari img).Runs c e ∧
    e.pc = 0x2000 ∧ e.mem 0x2001 = 1 ∧ e.mem 0x2002 = 7 ∧ e.mem 0x2004 = 9 := by
  obtain ⟨img, hi, hk⟩ := C21_partial (segs := [⟨0x2000, [0xa9, 1, 2, 3]⟩, ⟨0x2002, [7, 8, 9]⟩]) (r := some 0x2001) (x := _) rfl (by decide)
  obtain ⟨c, hboot, hs⟩ := someAtari_boots hi (l := [⟨0x2e0, [0, 0x20]⟩, ⟨0x2000, [0xa9, 1, 2, 3]⟩, ⟨0x2002, [7, 8, 9]⟩]) (by rfl) (by decide)
  obtain ⟨e, r1, p1, m1⟩ := C85_start hi (by decide) (someAtari_apart img) (by
      intro t ht
      simp only [List.mem_cons, List.not_mem_nil, or_false] at ht
      rcases ht with rfl | rfl <;> exact loadable_high (by simp) (by decide) (by decide)) (by
      intro t ht
      simp only [List.mem_cons, List.not_mem_nil, or_false] at ht
      rcases ht with rfl | rfl <;> (unfold Seg.covers; simp only [List.length_cons, List.length_nil]; intro p hp; omega)) rfl hboot hs
  have hc1 : (⟨0x2000, [0xa9, 1, 2, 3]⟩ : Seg).covers 0x2001 := by unfold Seg.covers; decide
  have hc2 : (⟨0x2002, [7, 8, 9]⟩ : Seg).covers 0x2002 := by unfold Seg.covers; decide
  have hc3 : (⟨0x2002, [7, 8, 9]⟩ : Seg).covers 0x2004 := by unfold Seg.covers; decide
  exact ⟨img, _, e, hi, hboot, r1, p1, (m1 _ (by simp) _ hc1).trans rfl, (m1 _ (by simp) _ hc2).trans rfl, (m1 _ (by simp) _ hc3).trans rfl⟩

/-- the routine `INC 0x2100`, `RTS` at 0x2000 returns -/
theorem inc_returns {img : Bytes} {m : Nat → UInt8} (h : m 0x2000 = 0xee ∧ m 0x2001 = 0 ∧ m 0x2002 = 0x21 ∧ m 0x2003 = 0x60) (hv : m 0x2e2 = 0 ∧ m 0x2e3 = 0x20) :
    InitReturns (someAtari img) m (poke m 0x2100 (m 0x2100 + 1)) := by
  intro c hpc hs1 hs2 hm
  have hf : ∀ p, 0x2000 ≤ p → p ≤ 0x2100 → Free (someAtari img) True p := by
    intro p h1 h2
    refine ⟨?_, by omega⟩
    show ¬ (((p < 0x40 ∨ (0x200 ≤ p ∧ p < 0x2e0)) ∨ _) ∨ _)
    omega
  rw [hv.1, hv.2] at hpc
  have hpc : c.pc = 0x2000 := hpc
  have d1 : decode6502 c.mem c.pc = some (.inc 0x2100, 3) := by
    rw [hpc]
    unfold decode6502
    simp only [Nat.reduceAdd, Nat.reduceMod, hm 0x2000 (hf _ (by omega) (by omega)), hm 0x2001 (hf _ (by omega) (by omega)), hm 0x2002 (hf _ (by omega) (by omega)), h.1, h.2.1, h.2.2.1]
    rfl
  refine runs1 d1 (by omega) ?_
  have d2 : decode6502 (poke c.mem 0x2100 (c.mem 0x2100 + 1)) 0x2003 = some (.rts, 1) := by
    unfold decode6502
    rw [poke_ne _ _ (show 0x2003 ≠ 0x2100 by omega), hm 0x2003 (hf _ (by omega) (by omega)), h.2.2.2]
    rfl
  obtain ⟨a, x, y, s, n, z, cf, pc, mem⟩ := c
  simp only at hpc hs1 hs2 hm d2 ⊢
  subst hpc
  refine runs1 (i := .rts) (len := 1) d2 (show (0x2003 : Nat) ≠ 0xe459 by omega) ?_
  refine ⟨_, .refl _, ?_, rfl, fun p hp => ?_, fun p hp => ?_⟩
  · have e1 : (s + 1).toNat = s.toNat + 1 := u8_add 1 (by show _ + 1 < 256; omega)
    have e2 : (s + 2).toNat = s.toNat + 2 := u8_add 2 (by show _ + 2 < 256; omega)
    show (word (poke mem _ _ _) (poke mem _ _ _) + 1) % _ = (word _ _ + 1) % _
    show (word (poke mem _ _ (0x100 + (s + 1).toNat)) (poke mem _ _ (0x100 + (s + 2).toNat)) + 1) % 0x10000 = (word (mem (0x100 + (s + 1).toNat)) (mem (0x100 + (s + 2).toNat)) + 1) % 0x10000
    rw [poke_ne _ _ (by omega), poke_ne _ _ (by omega)]
  · unfold MustKeep at hp
    exact poke_ne _ _ (by omega)
  · show poke mem 0x2100 (mem 0x2100 + 1) p = poke m 0x2100 (m 0x2100 + 1) p
    unfold poke
    by_cases h1 : p = 0x2100
    · rw [if_pos h1, if_pos h1, hm _ (hf _ (by omega) (by omega))]
    · rw [if_neg h1, if_neg h1, hm p hp]

/-- an init routine that counts up a byte loaded before; another segment follows -/
example : ∃ img c e, createBootImage [⟨0x2000, [0xee, 0, 0x21, 0x60]⟩, ⟨0x2100, [5]⟩, ⟨0x2e2, [0, 0x20]⟩, ⟨0x2101, [9]⟩] none = .ok img ∧ Booted (someAtari img) c ∧
    (someAtari img).Runs c e ∧ e.pc = 0x2000 ∧ e.mem 0x2100 = 6 ∧ e.mem 0x2101 = 9 := by
  obtain ⟨img, hi, hk⟩ := C21_partial (segs := [⟨0x2000, [0xee, 0, 0x21, 0x60]⟩, ⟨0x2100, [5]⟩, ⟨0x2e2, [0, 0x20]⟩, ⟨0x2101, [9]⟩]) (r := none) (x := _) rfl (by decide)
  have hx : xexSegments [⟨0x2000, [0xee, 0, 0x21, 0x60]⟩, ⟨0x2100, [5]⟩, ⟨0x2e2, [0, 0x20]⟩, ⟨0x2101, [9]⟩] none =
      .ok [⟨0x2e0, [0, 0x20]⟩, ⟨0x2000, [0xee, 0, 0x21, 0x60]⟩, ⟨0x2100, [5]⟩, ⟨0x2e2, [0, 0x20]⟩, ⟨0x2101, [9]⟩] := by rfl
  obtain ⟨c, hboot, hs⟩ := someAtari_boots hi hx (by decide)
  obtain ⟨e, r1, p1, m1⟩ := C85_init_partial hi hx (by decide) (someAtari_apart img) (by
      intro t ht
      simp only [List.mem_cons, List.not_mem_nil, or_false] at ht
      rcases ht with rfl | rfl | rfl | rfl | rfl
      · exact loadable_vector (by simp) (by decide) (by decide)
      · exact loadable_high (by simp) (by decide) (by decide)
      · exact loadable_high (by simp) (by decide) (by decide)
      · exact loadable_vector (by simp) (by decide) (by decide)
      · exact loadable_high (by simp) (by decide) (by decide)) rfl hboot hs (inits := True)
    (.plain (by simp [loadSeg, bootSetup]) (.plain (by simp [loadSeg, bootSetup]) (.plain (by simp [loadSeg, bootSetup]) (.init trivial (by simp [loadSeg])
      (inc_returns (by simp [loadSeg]) (by simp [loadSeg])) (.plain (by simp [loadSeg, poke]) (.nil _))))))
  have hf : ∀ p, (0x2e0 ≤ p ∧ p ≤ 0x2e1) ∨ (0x800 ≤ p ∧ p < 0xd000) → Free (someAtari img) True p := by
    intro p h
    refine ⟨?_, by omega⟩
    show ¬ (((p < 0x40 ∨ (0x200 ≤ p ∧ p < 0x2e0)) ∨ _) ∨ _)
    omega
  refine ⟨img, c, e, hi, hboot, r1, ?_, (m1 _ (hf _ (by omega))).trans ?_, (m1 _ (hf _ (by omega))).trans ?_⟩
  · rw [p1, m1 _ (hf _ (by omega)), m1 _ (hf _ (by omega))]
    simp [loadSeg, poke, word]
  · simp [loadSeg, poke]
  · simp [loadSeg]

end Atr
