import Verif.Lemmas.DeliveryLoop
import Verif.Lemmas.Detect
import Verif.Props.Delivery
/-!
# C86: the boot code of Standard Delivery disks on an Apple ][
-/
namespace Atr

/-- from the jump of the ROM to the first entry of the list -/
theorem boot_start {A : Apple} {b : Bytes} {rest : Bytes} (hboot : dskSector b 0 = fstbtCode ++ rest) (hb : b.length = 143360) (hd : A.disk = dskDisk b) {c : Cpu}
    (hc : AppleBooted A c) (hs : 6 ≤ c.s.toNat) :
    ∃ e h', A.Runs (c, 0) (e, h') ∧ AInv A (dskSector b 0) 0 0 0 e h' ∧ e.pc = 0x816 ∧ e.mem 0x80b = 0xd0 ∧ (∀ p, p < 0xc000 → e.mem p = c.mem p) ∧
      ShowsHires e.mem (c.mem 0x10002) := by
  have hload : ∀ i < 256, c.mem (0x800 + i) = (dskSector b 0).getD i 0 := by
    obtain ⟨d, h1, h2⟩ := hc.loaded
    rw [hd] at h1
    unfold dskDisk at h1
    rw [if_pos ⟨by omega, by omega, hb⟩] at h1
    have : dskSector b 0 = d := Option.some.inj h1
    rw [this]; exact h2
  have hbyte : ∀ i < 133, c.mem (0x800 + i) = fstbtCode.getD i 0 := by
    intro i hi
    rw [hload i (by omega), hboot, List.getD_eq_getElem?_getD, List.getElem?_append_left (by rw [fstbt_length]; exact hi), ← List.getD_eq_getElem?_getD]
  have hcode : ACode c.mem := by
    intro p h1 h2 _ _
    have := hbyte (p - 0x800) (by omega)
    rwa [show 0x800 + (p - 0x800) = p by omega] at this
  have h80 : c.mem 0x80b = 0xd0 := hbyte 0xb (by omega)
  have hone : c.mem 0x800 = 1 := hbyte 0 (by omega)
  have hptr : c.mem 0x81a = 0x86 := hbyte 0x1a (by omega)
  have key : ∃ e h', A.Runs (c, 0) (e, h') ∧ (h' = 0 ∧ e.x = c.x ∧ e.y = c.a ∧ e.s = c.s ∧ e.pc = 0x816 ∧ (∀ p, p < 0xc000 → e.mem p = c.mem p) ∧
      ShowsHires e.mem (c.mem 0x10002)) := by
    have hpc := hc.pc
    have ha := hc.a
    clear hc hbyte hload
    obtain ⟨a, x, y, s, n, z, cf, pc, m⟩ := c
    simp only at hcode hpc ha h80 ⊢
    subst hpc
    subst ha
    refine aruns1 hcode.at_801 (by simp) ?_
    refine aruns_sw 0 (c := { a := 1, x := x, y := 1, s := s, n := isNeg 1, z := isZero 1, c := cf, pc := 0x802, mem := m }) hcode.at_802 rfl (by simp) ?_
    have c1 : ACode (poke (poke m 0xc050 1) 0x10000 0) := (hcode.poke (by omega)).poke (by omega)
    refine aruns_sw 2 (c := { a := 1, x := x, y := 1, s := s, n := isNeg 1, z := isZero 1, c := cf, pc := 0x805, mem := poke (poke m 0xc050 1) 0x10000 0 }) c1.at_805 rfl (by simp) ?_
    have c2 : ACode (poke (poke (poke (poke m 0xc050 1) 0x10000 0) 0xc052 1) 0x10001 0) := (c1.poke (by omega)).poke (by omega)
    refine aruns_sw 7 (c := { a := 1, x := x, y := 1, s := s, n := isNeg 1, z := isZero 1, c := cf, pc := 0x808, mem := poke (poke (poke (poke m 0xc050 1) 0x10000 0) 0xc052 1) 0x10001 0 }) c2.at_808 rfl (by simp) ?_
    have c3 : ACode (poke (poke (poke (poke (poke (poke m 0xc050 1) 0x10000 0) 0xc052 1) 0x10001 0) 0xc057 1) 0x10003 1) := (c2.poke (by omega)).poke (by omega)
    have hm : ∀ p, p ≠ 0xc050 → p ≠ 0xc052 → p ≠ 0xc057 → p ≠ 0x10000 → p ≠ 0x10001 → p ≠ 0x10003 → (poke (poke (poke (poke (poke (poke m 0xc050 1) 0x10000 0) 0xc052 1) 0x10001 0) 0xc057 1) 0x10003 1) p = m p := by
      intro p k1 k2 k3 k4 k5 k6
      rw [poke_ne _ _ k6, poke_ne _ _ k3, poke_ne _ _ k5, poke_ne _ _ k2, poke_ne _ _ k4, poke_ne _ _ k1]
    refine aruns_br (c := { a := 1, x := x, y := 1, s := s, n := isNeg 1, z := isZero 1, c := cf, pc := 0x80b, mem := poke (poke (poke (poke (poke (poke m 0xc050 1) 0x10000 0) 0xc052 1) 0x10001 0) 0xc057 1) 0x10003 1 })
      (c3.at_80b_d0 (by rw [hm _ (by omega) (by omega) (by omega) (by omega) (by omega) (by omega)]; exact h80)) (by simp) rfl ?_
    refine ⟨_, _, .refl _, rfl, rfl, rfl, rfl, rfl, fun p hp => hm p (by omega) (by omega) (by omega) (by omega) (by omega) (by omega), ⟨?_, ?_, ?_, ?_⟩⟩ <;> simp only
    · rw [poke_ne _ _ (by omega), poke_ne _ _ (by omega), poke_ne _ _ (by omega), poke_ne _ _ (by omega), poke_same]
    · rw [poke_ne _ _ (by omega), poke_ne _ _ (by omega), poke_same]
    · exact hm _ (by omega) (by omega) (by omega) (by omega) (by omega) (by omega)
    · rw [poke_same]
  obtain ⟨e, h', r, e0, e1, e2, e3, e4, e5, e6⟩ := key
  subst e0
  refine ⟨e, 0, r, ⟨?_, ?_, ?_, ?_, ?_, ?_, ?_, ?_, ?_, rfl, ?_, Or.inl rfl⟩, e4, ?_, e5, e6⟩
  · exact hcode.keep fun p _ _ _ _ => e5 p (by omega)
  · rw [e5 _ (by omega)]; exact hone
  · intro p h1 h2
    rw [e5 _ (by omega)]
    have := hload (p - 0x800) (by omega)
    rwa [show 0x800 + (p - 0x800) = p by omega] at this
  · rw [e1]; exact hc.x
  · rw [e5 _ (by omega)]; exact hc.slot
  · rw [e3]; exact hs
  · rw [e2, hc.a]; rfl
  · rw [e5 _ (by omega), hc.track.1]; rfl
  · rw [e5 _ (by omega), hc.track.2]; rfl
  · rw [e5 _ (by omega), hptr]; rfl
  · rw [e5 _ (by omega)]; exact h80

/-- **C86.** The machine code in the boot sector does what `runLoader` says: on an Apple ][ that has read the boot sector, the code runs to its end, every sector of
the list that the loads name is read to its page, and the jump at the end goes to the address in the boot sector. -/
theorem C86_loader {A : Apple} (hA : A.slot < 8) {b : Bytes} (hb : b.length = 143360) (hd : A.disk = dskDisk b) {rest : Bytes} (hboot : dskSector b 0 = fstbtCode ++ rest)
    {c : Cpu} (hc : AppleBooted A c) (hs : 6 ≤ c.s.toNat) {L : List (Nat × Nat)} (hr : runLoader (slice (dskSector b 0) 135 256) 0 1 = some L) (hL : ∀ l ∈ L, l.2 < 560) :
    ∃ e h', A.Runs (c, 0) (e, h') ∧ e.pc = le16 ((dskSector b 0).getD 133 0) ((dskSector b 0).getD 134 0) ∧
      ∀ p, loadable (p / 256) = true → e.mem p = L.foldl (loadPage b) c.mem p := by
  obtain ⟨c1, h1, r1, i1, a1, a2, a3, _⟩ := boot_start hboot hb hd hc hs
  have hlen : (dskSector b 0).length = 256 := by
    unfold dskSector
    rw [length_slice]
    omega
  obtain ⟨e, h', r2, e1, e2⟩ := list_block hA hb hd (slice (dskSector b 0) 135 256) 0 0 0 c1 h1 L i1 a1 a2 (by rw [length_slice]; omega)
    (fun i hi => by rw [getD_slice (by rw [length_slice] at hi; omega)]) hr hL (by omega)
  refine ⟨e, h', r1.trans r2, e1, fun p hp => ?_⟩
  have := loadable_iff.mp hp
  rw [e2 p hp]
  exact loads_congr b p L (a3 p (by omega))

/-- **C86.** An Apple ][ boots a disk that was built from a list of segments: the code in the boot sector reads every segment to its place and jumps to the given address. -/
theorem C86_boots {segs : List Seg} {runAddr : Option Nat} {b : Bytes} (h : createDelivery segs runAddr = .ok b) (hl : ∀ x ∈ allPages segs, loadable x.1 = true)
    {A : Apple} (hA : A.slot < 8) (hd : A.disk = dskDisk b) {c : Cpu} (hc : AppleBooted A c) (hs : 6 ≤ c.s.toNat) :
    ∃ e h' run, A.Runs (c, 0) (e, h') ∧ jumpTarget segs runAddr = some run ∧ e.pc = run % 65536 ∧
      ∀ p, loadable (p / 256) = true → e.mem p = memAfter p segs (c.mem p) := by
  obtain ⟨run, h1, h2, ⟨rest, h3⟩, h4, h5, h6, h7⟩ := delivery_loads h hl
  obtain ⟨e, h', r, e1, e2⟩ := C86_loader hA h2 hd h3 hc hs h5 (fun l hm => by
    have := List.of_mem_zip (a := l.1) (b := l.2) hm
    have := List.mem_range'_1.mp this.2
    omega)
  refine ⟨e, h', run, r, h1, by rw [e1, h6], fun p hp => ?_⟩
  rw [e2 p hp, loads_fold b _ 1 c.mem h7]
  exact items_fold p segs true c.mem

/-- **C86.** Every byte of every segment is at its address when the program starts, and the pages of no segment are as before, if no two segments share a page. -/
theorem C86_contents_partial {segs : List Seg} {runAddr : Option Nat} {b : Bytes} (h : createDelivery segs runAddr = .ok b) (hl : ∀ x ∈ allPages segs, loadable x.1 = true)
    (hdis : segs.Pairwise fun s t => ∀ a, ¬ (s.touches a ∧ t.touches a))
    {A : Apple} (hA : A.slot < 8) (hd : A.disk = dskDisk b) {c : Cpu} (hc : AppleBooted A c) (hs : 6 ≤ c.s.toNat) :
    ∃ e h' run, A.Runs (c, 0) (e, h') ∧ jumpTarget segs runAddr = some run ∧ e.pc = run % 65536 ∧
      (∀ s ∈ segs, ∀ i (hi : i < s.data.length), e.mem (loadAddr s.origin + i) = s.data[i]) ∧
      (∀ p, loadable (p / 256) = true → (∀ s ∈ segs, ¬ s.touches p) → e.mem p = c.mem p) := by
  obtain ⟨mem, run', q1, q2, q3, q4⟩ := C56_contents_partial h hl hdis c.mem
  obtain ⟨e, h', run, r, h1, h2, h3⟩ := C86_boots h hl hA hd hc hs
  obtain ⟨mem2, run2, p1, p2, p3⟩ := C56_boot h hl c.mem
  have hmem : ∀ p, mem p = memAfter p segs (c.mem p) := by
    rw [q2] at p2
    injection p2 with p2
    injection p2 with p2
    intro p
    rw [p2]; exact p3 p
  refine ⟨e, h', run, r, h1, h2, ?_, ?_⟩
  · intro s hm i hi
    have ht : s.touches (loadAddr s.origin + i) := touches_own hi
    have hlo : loadable ((loadAddr s.origin + i) / 256) = true := by
      refine hl ((loadAddr s.origin + i) / 256, pageBytes (loadAddr s.origin) s.data ((loadAddr s.origin + i) / 256)) ?_
      unfold allPages segPages
      rw [List.mem_flatMap]
      refine ⟨s, hm, List.mem_map_of_mem (f := fun p => (p, pageBytes (loadAddr s.origin) s.data p)) ?_⟩
      rw [List.mem_range'_1]
      exact ht
    rw [h3 _ hlo, ← hmem]
    exact q3 s hm i hi
  · intro p hp hn
    rw [h3 p hp]
    exact memAfter_untouched hn

/-! ### a concrete case -/

/-- an Apple ][ with the controller in slot 6 that has just read the boot sector of a disk -/
def sampleApple (b : Bytes) : Apple := { slot := 6, disk := dskDisk b, after := id }
def sampleBooted (b : Bytes) : Cpu where
  a := 1
  x := 0x60
  y := 0
  s := 0xf0
  n := false
  z := false
  c := true
  pc := 0x801
  mem := fun p => if p = 0x2b then 0x60 else if p / 256 = 8 then (dskSector b 0).getD (p % 256) 0 else 0

example : ∃ b, createDelivery sampleDelivery none = .ok b ∧ ∃ e h', (sampleApple b).Runs (sampleBooted b, 0) (e, h') ∧ e.pc = 0x2000 ∧ e.mem 0x6010 = 0xea ∧
    e.mem 0x2abc = 0x55 ∧ e.mem 0x4000 = 0x60 := by
  obtain ⟨b, hb⟩ := C44_fits (segs := sampleDelivery) (runAddr := none) (by decide +kernel) (by decide +kernel) (by decide +kernel)
  have hlen : b.length = 143360 := (C44_every_page_once hb).1
  have hboot : AppleBooted (sampleApple b) (sampleBooted b) := by
    refine ⟨rfl, rfl, rfl, rfl, ⟨rfl, rfl⟩, dskSector b 0, ?_, ?_⟩
    · show dskDisk b 0 0 = _
      unfold dskDisk
      rw [if_pos ⟨by omega, by omega, hlen⟩]
      rfl
    · intro i hi
      show (if 0x800 + i = 0x2b then (0x60 : UInt8) else if (0x800 + i) / 256 = 8 then _ else 0) = _
      rw [if_neg (by omega), if_pos (by omega), show (0x800 + i) % 256 = i by omega]
  obtain ⟨e, h', run, r, h1, h2, h3⟩ := C86_boots hb (allPages_loadable (by decide +kernel)) (A := sampleApple b) (show 6 < 8 by decide) rfl hboot (show 6 ≤ (0xf0 : UInt8).toNat by decide)
  have h0 : jumpTarget sampleDelivery none = some 0x2000 := by decide +kernel
  rw [h0] at h1
  have h1 := Option.some.inj h1
  refine ⟨b, hb, e, h', r, by rw [h2, ← h1], ?_, ?_, ?_⟩
  · rw [h3 _ (by decide), show (sampleBooted b).mem 0x6010 = 0 from rfl]; decide +kernel
  · rw [h3 _ (by decide), show (sampleBooted b).mem 0x2abc = 0 from rfl]; decide +kernel
  · rw [h3 _ (by decide), show (sampleBooted b).mem 0x4000 = 0 from rfl]; decide +kernel

end Atr
