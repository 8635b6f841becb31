import Verif.Spec.Antic
import Verif.Props.KBootRun
/-!
# C95: what is on the screen while a boot disk loads
-/
namespace Atr

local macro "ins " t:term : tactic => `(tactic| (
  refine runs1 $t (by simp) ?_
  simp only [Cpu.exec, Cpu.setReg, Cpu.value, Cpu.addr, Cpu.reg, Cpu.flag, Cpu.modify, Nat.reduceAdd, Nat.reduceMod]))
local macro "code" : tactic => `(tactic| repeat (first | assumption | refine Code.poke ?_ (by omega)))

/-- The first part of the loader again: where it leaves the address of the display list, and which memory it leaves alone. -/
theorem init_screen {A : Atari} {c : Cpu} (hc : Code c.mem) (hpc : c.pc = 0x706) :
    ∃ e, A.Runs c e ∧ e.pc = 0x756 ∧ (e.mem 0x230 = 0xe3 ∧ e.mem 0x231 = 7) ∧ (e.mem 0xd402 = 0xe3 ∧ e.mem 0xd403 = 7) ∧
      ∀ p, 0x700 ≤ p → p < 0xd000 → e.mem p = c.mem p := by
  obtain ⟨a, x, y, s, n, z, cf, pc, m⟩ := c
  simp only at hc hpc ⊢
  subst hpc
  ins hc.at_706
  ins (Code.at_70d (by code))
  ins (Code.at_70f (by code))
  ins (Code.at_712 (by code))
  ins (Code.at_715 (by code))
  ins (Code.at_718 (by code))
  ins (Code.at_71b (by code))
  ins (Code.at_71e (by code))
  ins (Code.at_71f (by code))
  ins (Code.at_721 (by code))
  ins (Code.at_724 (by code))
  ins (Code.at_727 (by code))
  ins (Code.at_729 (by code))
  ins (Code.at_72c (by code))
  ins (Code.at_72e (by code))
  ins (Code.at_731 (by code))
  ins (Code.at_733 (by code))
  ins (Code.at_736 (by code))
  ins (Code.at_738 (by code))
  ins (Code.at_73b (by code))
  ins (Code.at_73d (by code))
  ins (Code.at_740 (by code))
  ins (Code.at_743 (by code))
  ins (Code.at_745 (by code))
  ins (Code.at_748 (by code))
  ins (Code.at_74b (by code))
  ins (Code.at_74d (by code))
  ins (Code.at_74e (by code))
  ins (Code.at_751 (by code))
  ins (Code.at_753 (by code))
  refine ⟨_, .refl _, rfl, ⟨?_, ?_⟩, ⟨?_, ?_⟩, ?_⟩
  iterate 4 (simp [poke])
  intro p h1 h2
  show poke _ _ _ p = m p
  repeat rw [poke_ne _ _ (by omega)]

theorem splice_getD_congr {l l' : Bytes} {a k : Nat} {new : Bytes} (h : a + new.length ≤ l.length) (h' : a + new.length ≤ l'.length)
    (e : l.getD k 0 = l'.getD k 0) : (splice l a new).getD k 0 = (splice l' a new).getD k 0 := by
  rw [getD_splice _ _ _ _ h, getD_splice _ _ _ _ h', e]

/-- the boot sectors behind the length of the executable do not depend on it -/
theorem kbBoot_tail (n k : Nat) (hk : 11 ≤ k) : (kbBoot n).getD k 0 = (kbBoot 0).getD k 0 := by
  have h0 : ∀ n, (splice xexbootHeader 9 (enc16 n)).length = 300 := fun n => by
    rw [length_splice _ _ _ (by rw [xexbootHeader_length]; simp [enc16]), xexbootHeader_length]
  have hz : (List.replicate 384 (0 : UInt8)).length = 384 := List.length_replicate
  have h1 : ∀ n, (splice (List.replicate 384 (0 : UInt8)) 0 (splice xexbootHeader 9 (enc16 n))).length = 384 := fun n => by
    rw [length_splice _ _ _ (by rw [h0, hz]; decide), hz]
  have h2 : ∀ n, (insertBytes (splice (List.replicate 384 (0 : UInt8)) 0 (splice xexbootHeader 9 (enc16 n))) 268 kbTitle 0xc0).length = 384 := fun n =>
    (insertBytes_facts _ 268 kbTitle 0xc0 (h1 n) (by decide) (by decide) (by decide)).1
  have he : ∀ n, (enc16 n).length = 2 := fun n => by simp [enc16]
  have s0 : (splice xexbootHeader 9 (enc16 n)).getD k 0 = (splice xexbootHeader 9 (enc16 0)).getD k 0 := by
    rw [getD_splice xexbootHeader 9 (enc16 n) k (by rw [xexbootHeader_length, he]; decide), getD_splice xexbootHeader 9 (enc16 0) k (by rw [xexbootHeader_length, he]; decide),
      he, he, if_neg (by omega), if_neg (by omega)]
  have s1 : (splice (List.replicate 384 (0 : UInt8)) 0 (splice xexbootHeader 9 (enc16 n))).getD k 0 =
      (splice (List.replicate 384 (0 : UInt8)) 0 (splice xexbootHeader 9 (enc16 0))).getD k 0 := by
    rw [getD_splice (List.replicate 384 0) 0 (splice xexbootHeader 9 (enc16 n)) k (by rw [h0, hz]; decide),
      getD_splice (List.replicate 384 0) 0 (splice xexbootHeader 9 (enc16 0)) k (by rw [h0, hz]; decide), h0, h0, Nat.sub_zero, s0]
  have s2 := splice_getD_congr (a := 268 + (20 - kbTitle.length) / 2) (new := kbTitle.map fun c => (c - 32) ||| 0xc0)
    (by rw [h1, List.length_map]; decide) (by rw [h1, List.length_map]; decide) s1
  exact splice_getD_congr (by rw [h2, List.length_map]; decide) (by rw [h2, List.length_map]; decide) s2

/-- what the operating system has read: the code, and the boot sectors in page 7 and 8 -/
theorem booted_mem {A : Atari} {segs l : List Seg} {r : Option Nat} {img : Bytes} {c : Cpu} (hi : createBootImage segs r = .ok img)
    (hl : xexSegments segs none = .ok l) (hsize : xexSize l < 65536) (hdisk : A.disk = atrSector img) (hboot : Booted A c) :
    c.pc = 0x706 ∧ ∃ n, ∀ k < 384, c.mem (0x700 + k) = (kbBoot n).getD k 0 := by
  obtain ⟨l', x, hd, g1, g2, g3, g5, g4⟩ := createBootImage_bytes hi
  rw [hl] at g1
  injection g1 with g1
  subst g1
  have hxl : x.length < 65536 := by rw [g2, xexSize_eq]; exact hsize
  have hal := addXexboot_length x
  have hkl := (kbBoot_facts x.length).1
  have hsec : ∀ n, 1 ≤ n → 128 * n ≤ 384 + (x.length + 127) / 128 * 128 →
      ∃ d, A.disk n = some d ∧ ∀ t < 128, d.getD t 0 = (addXexboot x).getD (128 * (n - 1) + t) 0 := by
    intro n h1 h2
    rw [hdisk, g4]
    exact atrSector_append g3 (g5 hxl) h1 (by omega)
  have hfront : ∀ k < 384, (addXexboot x).getD k 0 = (kbBoot x.length).getD k 0 := by
    intro k hk
    unfold addXexboot
    rw [List.getD_eq_getElem?_getD, List.getElem?_append_left (by omega), List.getD_eq_getElem?_getD]
  obtain ⟨b, b1, b2, b3⟩ := hboot.loaded
  obtain ⟨b', b1', b4⟩ := hsec 1 (by omega) (by omega)
  rw [b1] at b1'
  injection b1' with b1'
  subst b1'
  have f : ∀ k < 9, b.getD k 0 = xexbootHeader.getD k 0 := by
    intro k hk
    rw [b4 k (by omega), show 128 * (1 - 1) + k = k by omega, hfront _ (by omega), kbBoot_getD _ _ (by omega), if_neg (by omega), if_neg (by omega)]
  have f1 : b.getD 1 0 = 3 := (f 1 (by omega)).trans rfl
  have f2 : b.getD 2 0 = 0 := (f 2 (by omega)).trans rfl
  have f3 : b.getD 3 0 = 7 := (f 3 (by omega)).trans rfl
  rw [f1, f2, f3] at b3
  rw [f2, f3] at b2
  refine ⟨b2, x.length, fun k hk => ?_⟩
  obtain ⟨d, d1, d2⟩ := b3 (k / 128) (by show _ < 3; omega)
  obtain ⟨d', d1', d3⟩ := hsec (k / 128 + 1) (by omega) (by omega)
  rw [d1] at d1'
  injection d1' with d1'
  subst d1'
  have := d2 (k % 128) (Nat.mod_lt _ (by omega))
  rw [show word 0 7 + 128 * (k / 128) + k % 128 = 0x700 + k by rw [show word 0 7 = 0x700 from rfl]; omega] at this
  rw [this, d3 _ (Nat.mod_lt _ (by omega)), show 128 * (k / 128 + 1 - 1) + k % 128 = k by omega, hfront _ (by omega)]

/-- memory with the boot sectors for an empty file and nothing else -/
def bootMem (p : Nat) : UInt8 := if p = 0x230 then 0xe3 else if p = 0x231 then 7 else (kbBoot 0).getD (p - 0x700) 0

/-- the addresses a picture is made from -/
def anticReads (m : Nat → UInt8) : Nat → Nat → Nat → List Nat
  | 0, _, _ => []
  | fuel + 1, p, scan =>
    let op := (m p).toNat
    let here := [p, dlNext p 1, dlNext p 2]
    if op = 0x41 then here
    else if op % 16 = 0 ∧ op < 128 then here ++ anticReads m fuel (dlNext p 1) scan
    else if op % 64 = 6 ∨ op % 64 = 7 then
      if op < 64 then here ++ (List.range 20).map (scanNext scan) ++ anticReads m fuel (dlNext p 1) (scanNext scan 20)
      else if op < 128 then
        let scan := word (m (dlNext p 1)) (m (dlNext p 2))
        here ++ (List.range 20).map (scanNext scan) ++ anticReads m fuel (dlNext p 3) (scanNext scan 20)
      else here
    else here

theorem anticLine_congr {m m' : Nat → UInt8} {scan : Nat} (h : ∀ q ∈ (List.range 20).map (scanNext scan), m' q = m q) : anticLine m' scan = anticLine m scan := by
  unfold anticLine
  refine List.map_congr_left fun k hk => ?_
  rw [h _ (List.mem_map.mpr ⟨k, hk, rfl⟩)]

theorem antic_congr {m m' : Nat → UInt8} {top : Nat} : ∀ fuel p scan, (∀ q ∈ anticReads m fuel p scan, m' q = m q) → antic m' top fuel p scan = antic m top fuel p scan := by
  intro fuel
  induction fuel with
  | zero => intro _ _ _; rfl
  | succ fuel ih =>
    intro p scan h
    have hh : ∀ q ∈ [p, dlNext p 1, dlNext p 2], m' q = m q := by
      intro q hq
      refine h q ?_
      unfold anticReads
      simp only
      repeat' split
      all_goals first | exact hq | exact List.mem_append_left _ hq | exact List.mem_append_left _ (List.mem_append_left _ hq)
    have h0 := hh p (by simp)
    have h1 := hh (dlNext p 1) (by simp)
    have h2 := hh (dlNext p 2) (by simp)
    unfold anticReads at h
    simp only at h
    unfold antic
    simp only
    rw [h0, h1, h2]
    by_cases c1 : (m p).toNat = 0x41
    · simp only [if_pos c1]
    · simp only [if_neg c1] at h ⊢
      by_cases c2 : (m p).toNat % 16 = 0 ∧ (m p).toNat < 128
      · simp only [if_pos c2] at h ⊢
        rw [ih _ _ fun q hq => h q (List.mem_append_right _ hq)]
      · simp only [if_neg c2] at h ⊢
        by_cases c3 : (m p).toNat % 64 = 6 ∨ (m p).toNat % 64 = 7
        · simp only [if_pos c3] at h ⊢
          by_cases c4 : (m p).toNat < 64
          · simp only [if_pos c4] at h ⊢
            rw [ih _ _ fun q hq => h q (List.mem_append_right _ hq), anticLine_congr fun q hq => h q (List.mem_append_left _ (List.mem_append_right _ hq))]
          · simp only [if_neg c4] at h ⊢
            by_cases c5 : (m p).toNat < 128
            · simp only [if_pos c5] at h ⊢
              rw [ih _ _ fun q hq => h q (List.mem_append_right _ hq), anticLine_congr fun q hq => h q (List.mem_append_left _ (List.mem_append_right _ hq))]
            · simp only [if_neg c5]
        · simp only [if_neg c3]

theorem bootMem_screen : picture bootMem = some loadScreen := by decide +kernel

theorem bootMem_reads : ∀ q ∈ anticReads bootMem 1024 0x7e3 0, 0x7e3 ≤ q ∧ q < 0x85c := by decide +kernel

theorem picture_of {m : Nat → UInt8} (h1 : m 0x230 = 0xe3) (h2 : m 0x231 = 7) (h : ∀ k < 384, 11 ≤ k → m (0x700 + k) = (kbBoot 0).getD k 0) :
    picture m = some loadScreen := by
  rw [← bootMem_screen]
  unfold picture
  rw [h1, h2]
  show antic m 0x7e3 1024 0x7e3 0 = antic bootMem 0x7e3 1024 0x7e3 0
  refine antic_congr _ _ _ fun q hq => ?_
  obtain ⟨a, b⟩ := bootMem_reads q hq
  have := h (q - 0x700) (by omega) (by omega)
  rw [show 0x700 + (q - 0x700) = q by omega] at this
  rw [this]
  unfold bootMem
  rw [if_neg (by omega), if_neg (by omega)]

/-- **C95.** The boot disk of any program below 64K shows the same picture while it loads: before the first sector of the program is
read, the display list of the computer is the one of the boot sectors, and it shows five lines of text. -/
theorem C95_screen {A : Atari} {segs l : List Seg} {r : Option Nat} {img : Bytes} {c : Cpu} (hi : createBootImage segs r = .ok img)
    (hl : xexSegments segs none = .ok l) (hsize : xexSize l < 65536) (hdisk : A.disk = atrSector img) (hboot : Booted A c) :
    ∃ e, A.Runs c e ∧ e.pc = 0x756 ∧ picture e.mem = some loadScreen ∧ (e.mem 0xd402 = e.mem 0x230 ∧ e.mem 0xd403 = e.mem 0x231) := by
  obtain ⟨hpc, n, hm⟩ := booted_mem hi hl hsize hdisk hboot
  have hcode : Code c.mem := by
    intro p h1 h2 h3 h4
    have := hm (p - 0x700) (by omega)
    rw [show 0x700 + (p - 0x700) = p by omega] at this
    rw [this, kbBoot_getD _ _ (by omega), if_neg (by omega), if_neg (by omega)]
  obtain ⟨e, e1, e2, ⟨e3, e4⟩, ⟨e5, e6⟩, e7⟩ := init_screen (A := A) hcode hpc
  refine ⟨e, e1, e2, picture_of e3 e4 fun k hk h11 => ?_, by rw [e3, e5], by rw [e4, e6]⟩
  rw [e7 _ (by omega) (by omega), hm k hk, kbBoot_tail n k h11]

/-- There is such a computer for every boot disk. -/
theorem exists_booted {segs l : List Seg} {r : Option Nat} {img : Bytes} (hi : createBootImage segs r = .ok img)
    (hl : xexSegments segs none = .ok l) (hsize : xexSize l < 65536) : ∃ c, Booted (someAtari img) c := by
  obtain ⟨l', x, hd, g1, g2, g3, g5, g4⟩ := createBootImage_bytes hi
  rw [hl] at g1
  injection g1 with g1
  subst g1
  have hxl : x.length < 65536 := by rw [g2, xexSize_eq]; exact hsize
  have hal := addXexboot_length x
  have hsec : ∀ n, 1 ≤ n → 128 * n ≤ 384 → ∃ d, atrSector img n = some d ∧ ∀ t < 128, d.getD t 0 = (addXexboot x).getD (128 * (n - 1) + t) 0 := by
    intro n h1 h2
    rw [g4]
    exact atrSector_append g3 (g5 hxl) h1 (by omega)
  obtain ⟨b, b1, b2⟩ := hsec 1 (by omega) (by omega)
  have hb : ∀ k, k = 1 ∨ k = 2 ∨ k = 3 → b.getD k 0 = xexbootHeader.getD k 0 := by
    intro k hk
    have hkl := (kbBoot_facts x.length).1
    rw [b2 k (by omega), show 128 * (1 - 1) + k = k by omega]
    unfold addXexboot
    rw [List.getD_eq_getElem?_getD, List.getElem?_append_left (by omega), ← List.getD_eq_getElem?_getD, kbBoot_getD _ _ (by omega), if_neg (by omega), if_neg (by omega)]
  have f1 : b.getD 1 0 = 3 := (hb 1 (by omega)).trans rfl
  have f2 : b.getD 2 0 = 0 := (hb 2 (by omega)).trans rfl
  have f3 : b.getD 3 0 = 7 := (hb 3 (by omega)).trans rfl
  obtain ⟨c, c1, -, c3⟩ := exists_cpu 0xf0 0x706 fun p => (addXexboot x).getD (p - 0x700) 0
  refine ⟨c, b, b1, by rw [f2, f3, c1]; rfl, ?_⟩
  rw [f1, f2, f3]
  intro k hk
  have hk : k < 3 := hk
  obtain ⟨d, d1, d2⟩ := hsec (k + 1) (by omega) (by omega)
  refine ⟨d, d1, fun i hi => ?_⟩
  rw [d2 i hi]
  have hw : word 0 7 = 0x700 := rfl
  rw [c3, hw, show 0x700 + 128 * k + i - 0x700 = 128 * (k + 1 - 1) + i by omega]

/-- the line with the title, of a disk with a program of four bytes -/
example : ∃ img c e, createBootImage [⟨0x2000, [0xa9, 1, 2, 3]⟩] none = .ok img ∧ (someAtari img).Runs c e ∧
    (picture e.mem).bind (·[7]?) = some (.text 16 (line 8 3 "DEMO")) := by
  obtain ⟨img, hi, -⟩ := C21_partial (segs := [⟨0x2000, [0xa9, 1, 2, 3]⟩]) (r := none) (x := _) rfl (by decide)
  obtain ⟨c, hc⟩ := exists_booted hi (l := [⟨0x2e0, [0, 0x20]⟩, ⟨0x2000, [0xa9, 1, 2, 3]⟩]) rfl (by decide)
  obtain ⟨e, e1, -, e3, -⟩ := C95_screen hi (l := [⟨0x2e0, [0, 0x20]⟩, ⟨0x2000, [0xa9, 1, 2, 3]⟩]) rfl (by decide) rfl hc
  exact ⟨img, c, e, hi, e1, by rw [e3]; rfl⟩

end Atr
