import Verif.Lemmas.DeliveryRun
/-! # The boot code of Standard Delivery disks: its address list -/
namespace Atr

local macro "ins " t:term : tactic => `(tactic| (
  refine aruns1 $t (by simp) ?_
  simp only [Cpu.exec, Cpu.setReg, Cpu.value, Cpu.addr, Cpu.reg, Cpu.flag, Cpu.modify, Apple.head, Nat.reduceAdd, Nat.reduceMod]))

local macro "sw " t:term "," k:term : tactic => `(tactic| (
  refine aruns_sw $k $t rfl (by simp) ?_
  simp only [flipSwitch, Cpu.exec, Cpu.addr, Cpu.reg, Nat.reduceAdd, Nat.reduceMod, Nat.reduceDiv]))

local macro "br " t:term "," h:term : tactic => `(tactic| (
  refine aruns_br $t (by simp) $h ?_
  simp only))
local macro "nobr " t:term "," h:term : tactic => `(tactic| (
  refine aruns_no_br $t (by simp) $h ?_
  simp only [Nat.reduceAdd, Nat.reduceMod]))

/-! ### the instructions that are changed while the code runs -/

theorem ACode.at_80b_d0 {m} (h : ACode m) (hb : m 0x80b = 0xd0) : decode6502 m 0x80b = some (.br .z false 0x816, 2) := by
  have e : decode6502 m 0x80b = decode6502 acodeMem 0x80b := decode_congr (hb.trans rfl) (h 0x80c (by decide) (by decide) (by decide) (by decide)) (h 0x80d (by decide) (by decide) (by decide) (by decide))
  rw [e]; rfl

theorem ACode.at_80b_24 {m} (h : ACode m) (hb : m 0x80b = 0x24) : decode6502 m 0x80b = some (.bit (.abs 9), 2) := by
  have e : decode6502 m 0x80b = decode6502 (Atr.poke acodeMem 0x80b 0x24) 0x80b :=
    decode_congr (hb.trans rfl) (h 0x80c (by decide) (by decide) (by decide) (by decide)) (h 0x80d (by decide) (by decide) (by decide) (by decide))
  rw [e]; rfl

theorem ACode.at_819 {m} (h : ACode m) : decode6502 m 0x819 = some (.ld .a (.abs (0x800 + (m 0x81a).toNat)), 3) := by
  have e : decode6502 m 0x819 = decode6502 (Atr.poke acodeMem 0x81a (m 0x81a)) 0x819 :=
    decode_congr (h 0x819 (by decide) (by decide) (by decide) (by decide)) (poke_same _ _ _).symm (h 0x81b (by decide) (by decide) (by decide) (by decide))
  rw [e, Nat.add_comm 0x800]
  rfl

theorem ACode.at_884 {m} (h : ACode m) : decode6502 m 0x884 = some (.jmp (word (m 0x885) (m 0x886)), 3) := by
  have e : decode6502 m 0x884 = decode6502 (Atr.poke (Atr.poke acodeMem 0x886 (m 0x886)) 0x885 (m 0x885)) 0x884 :=
    decode_congr (h 0x884 (by decide) (by decide) (by decide) (by decide)) (poke_same _ _ _).symm rfl
  rw [e]; rfl

/-- What holds between the steps of the list: `k` entries were taken, sector `q` was visited last, and `page` is the page after the one
loaded last (0 before the first). -/
structure AInv (A : Apple) (boot : Bytes) (k q page : Nat) (c : Cpu) (h : Nat) : Prop where
  code : ACode c.mem
  one : c.mem 0x800 = 1
  lst : ∀ p, 0x885 ≤ p → p < 0x900 → c.mem p = boot.getD (p - 0x800) 0
  x : c.x.toNat = 16 * A.slot
  slot : (c.mem 0x2b).toNat = 16 * A.slot
  s : 6 ≤ c.s.toNat
  y : c.y.toNat = loaderPhysical (q % 16) + 1
  t40 : (c.mem 0x40).toNat = q / 16
  t41 : (c.mem 0x41).toNat = q / 16
  head : h = 2 * (q / 16)
  ptr : (c.mem 0x81a).toNat = 0x86 + k
  pg : page = 0 ∨ (c.mem 0x27).toNat = page

theorem AInv.keep {A : Apple} {boot : Bytes} {k q page k' page' : Nat} {c e : Cpu} {h : Nat} (i : AInv A boot k q page c h) (hx : e.x = c.x) (hy : e.y = c.y) (hs : e.s = c.s)
    (hm : ∀ p, p = 0x2b ∨ p = 0x40 ∨ p = 0x41 ∨ (0x800 ≤ p ∧ p < 0x900 ∧ p ≠ 0x80b ∧ p ≠ 0x81a) → e.mem p = c.mem p)
    (hp : (e.mem 0x81a).toNat = 0x86 + k') (hpg : page' = 0 ∨ (e.mem 0x27).toNat = page') : AInv A boot k' q page' e h where
  code := i.code.keep fun p k1 k2 k3 k4 => hm p (by omega)
  one := by rw [hm _ (by omega)]; exact i.one
  lst := fun p k1 k2 => by rw [hm _ (by omega)]; exact i.lst p k1 k2
  x := by rw [hx]; exact i.x
  slot := by rw [hm _ (by omega)]; exact i.slot
  s := by rw [hs]; exact i.s
  y := by rw [hy]; exact i.y
  t40 := by rw [hm _ (by omega)]; exact i.t40
  t41 := by rw [hm _ (by omega)]; exact i.t41
  head := i.head
  ptr := hp
  pg := hpg

theorem loadable_iff {p : Nat} : loadable p = true ↔ p ≠ 0 ∧ p ≠ 1 ∧ p ≠ 3 ∧ p ≠ 8 ∧ p < 0xc0 := by
  unfold loadable
  simp only [Bool.and_eq_true, bne_iff_ne, decide_eq_true_eq]
  omega

theorem dosSkew_lt {i : Nat} (h : i < 16) : dosSkew.getD i 0 < 16 := by
  have key : ∀ i : Fin 16, dosSkew.getD i.val 0 < 16 := by decide +kernel
  exact key ⟨i, h⟩

theorem ShowsHires.keep {m m' : Nat → UInt8} {v : UInt8} (h : ShowsHires m v) (hm : ∀ p, 0x10000 ≤ p → m' p = m p) : ShowsHires m' v where
  graphics := by rw [hm _ (by omega)]; exact h.graphics
  whole := by rw [hm _ (by omega)]; exact h.whole
  page := by rw [hm _ (by omega)]; exact h.page
  high := by rw [hm _ (by omega)]; exact h.high

/-- **one sector**: from 0x847 to 0x80b -/
theorem fetch_block {A : Apple} (hA : A.slot < 8) {b : Bytes} (hb : b.length = 143360) (hd : A.disk = dskDisk b) {boot : Bytes} {k q page : Nat} {c : Cpu} {h : Nat}
    (i : AInv A boot k q page c h) (hpc : c.pc = 0x847) (hl : loadable page = true) (hpg : (c.mem 0x27).toNat = page) (hq : q + 1 < 560) :
    ∃ e h', A.Runs (c, h) (e, h') ∧ AInv A boot k (q + 1) (page + 1) e h' ∧ e.pc = 0x80b ∧ e.z = false ∧ e.mem 0x80b = c.mem 0x80b ∧ e.mem 0xfe = c.mem 0xfe ∧
      (∀ p, loadable (p / 256) = true → e.mem p = loadPage b c.mem (page, q + 1) p) ∧ ShowsHires e.mem (c.mem 0x10002) := by
  have hslt := c.s.toNat_lt
  obtain ⟨c1, h1, r1, a0, a1, a2, a3, a4, a5, a6⟩ := turn_block hA (by omega) i.code hpc i.slot i.s i.y i.t40 i.t41
  subst a0
  have hph := phys_lt (q + 1)
  have hdisk : A.disk ((q + 1) / 16) c1.y.toNat = some (dskSector b (visited (q + 1))) := by
    rw [hd, a4]
    unfold dskDisk
    rw [if_pos ⟨by omega, hph, hb⟩]
    rfl
  have e27 : c1.mem 0x27 = c.mem 0x27 := a6 _ (by omega) (by omega) (by omega)
  obtain ⟨e, h2, r2, b0, b1, b2, b3, b4, b5, b6, b7, b8, b9, b10, b11, b12, b13⟩ := load_block hA (i.code.keep fun p k1 k2 k3 k4 => a6 p (by omega) (by omega) (by omega))
    (by rw [a6 _ (by omega) (by omega) (by omega)]; exact i.one) a1 (by rw [a3]; exact i.x) (by rw [a6 _ (by omega) (by omega) (by omega)]; exact i.slot) (by rw [a2]; exact i.s) a5 hdisk
    (by rw [a4]; exact hph) (by rw [e27, hpg]; exact hl)
  subst b0
  have h8 : ∀ p, 0x800 ≤ p → p < 0x900 → e.mem p = c.mem p := fun p k1 k2 => by rw [b11 p k1 k2]; exact a6 p (by omega) (by omega) (by omega)
  rw [i.head]
  refine ⟨e, _, r1.trans r2, ⟨?_, ?_, ?_, b3, b9, ?_, ?_, b7, b8, rfl, ?_, Or.inr ?_⟩, b1, b5, ?_, ?_, ?_, by rw [← a6 0x10002 (by omega) (by omega) (by omega)]; exact b13⟩
  · exact i.code.keep fun p k1 k2 k3 k4 => h8 p (by omega) (by omega)
  · rw [h8 _ (by omega) (by omega)]; exact i.one
  · intro p k1 k2
    rw [h8 _ (by omega) (by omega)]; exact i.lst p k1 k2
  · rw [b2, a2]; exact i.s
  · rw [b4, a4]
  · rw [h8 _ (by omega) (by omega)]; exact i.ptr
  · rw [b6, e27, hpg]
  · exact h8 _ (by omega) (by omega)
  · rw [b10]; exact a6 _ (by omega) (by omega) (by omega)
  · intro p hp
    rw [b12 p hp, e27, hpg]
    have := loadable_iff.mp hp
    unfold loadPage
    simp only
    by_cases hin : p / 256 = page
    · rw [if_pos hin, if_pos hin]
    · rw [if_neg hin, if_neg hin]
      exact a6 p (by omega) (by omega) (by omega)

theorem loads_congr (b : Bytes) (p : Nat) : ∀ (L : List (Nat × Nat)) {m m' : Nat → UInt8}, m p = m' p → (L.foldl (loadPage b) m) p = (L.foldl (loadPage b) m') p
  | [], _, _, h => h
  | l :: L, m, m', h => loads_congr b p L (by unfold loadPage; split; rfl; exact h)

/-- **0xe0 + n**: from 0x80d, with `n` in 0xfe, to 0x816 -/
theorem burst_block {A : Apple} (hA : A.slot < 8) {b : Bytes} (hb : b.length = 143360) (hd : A.disk = dskDisk b) {boot : Bytes} {k : Nat} :
    ∀ (n q page : Nat) (c : Cpu) (h : Nat), AInv A boot k q page c h → c.pc = 0x80d → c.mem 0x80b = 0x24 → (c.mem 0xfe).toNat = n → n < 32 →
      (List.range' page n).all loadable = true → q + n < 560 →
    ∃ e h', A.Runs (c, h) (e, h') ∧ AInv A boot k (q + n) (page + n) e h' ∧ e.pc = 0x816 ∧ e.mem 0x80b = 0xd0 ∧
      (∀ p, loadable (p / 256) = true → e.mem p = ((List.range' page n).zip (List.range' (q + 1) n)).foldl (loadPage b) c.mem p) ∧
      ∀ v, ShowsHires c.mem v → ShowsHires e.mem v := by
  intro n
  induction n with
  | zero =>
    intro q page c h i hpc hsm hfe hn hall hq
    have hfe' : c.mem 0xfe = 0 := UInt8.toNat_inj.mp hfe
    have key : ∃ e h', A.Runs (c, h) (e, h') ∧ (h' = h ∧ e.x = c.x ∧ e.y = c.y ∧ e.s = c.s ∧ e.pc = 0x816 ∧ e.mem = poke (poke c.mem 0xfe (c.mem 0xfe - 1)) 0x80b 0xd0) := by
      have hc := i.code
      clear i
      obtain ⟨a, x, y, s, n, z, cf, pc, m⟩ := c
      simp only at hc hpc hfe' ⊢
      subst hpc
      ins hc.at_80d
      have hc1 : ACode (poke m 0xfe (m 0xfe - 1)) := hc.poke (by omega)
      nobr hc1.at_80f, (by rw [hfe']; rfl)
      ins hc1.at_811
      ins hc1.at_813
      exact ⟨_, _, .refl _, rfl, rfl, rfl, rfl, rfl, rfl⟩
    obtain ⟨e, h', r, e0, e1, e2, e3, e4, e5⟩ := key
    subst e0
    have hm : ∀ p, p ≠ 0xfe → p ≠ 0x80b → e.mem p = c.mem p := fun p k1 k2 => by rw [e5, poke_ne _ _ k2, poke_ne _ _ k1]
    refine ⟨e, _, r, i.keep e1 e2 e3 (fun p hp => hm p (by omega) (by omega)) (by rw [hm _ (by omega) (by omega)]; exact i.ptr)
      (by rw [hm _ (by omega) (by omega)]; exact i.pg), e4, by rw [e5, poke_same], fun p hp => ?_,
      fun v hv => hv.keep fun p hp => hm p (by omega) (by omega)⟩
    have := loadable_iff.mp hp
    exact hm p (by omega) (by omega)
  | succ n ih =>
    intro q page c h i hpc hsm hfe hn hall hq
    have hfe1 : (c.mem 0xfe - 1).toNat = n := by rw [u8_sub1 (by omega), hfe]; omega
    simp only [List.range'_succ, List.all_cons, Bool.and_eq_true] at hall
    have hl := loadable_iff.mp hall.1
    have hpg : (c.mem 0x27).toNat = page := by
      rcases i.pg with hp | hp
      · exact absurd hp hl.1
      · exact hp
    have key : ∃ e h', A.Runs (c, h) (e, h') ∧ (h' = h ∧ e.x = c.x ∧ e.y = c.y ∧ e.s = c.s ∧ e.pc = 0x847 ∧ e.mem = poke c.mem 0xfe (c.mem 0xfe - 1)) := by
      have hc := i.code
      clear i
      obtain ⟨a, x, y, s, n', z, cf, pc, m⟩ := c
      simp only at hc hpc hfe1 ⊢
      subst hpc
      ins hc.at_80d
      have hc1 : ACode (poke m 0xfe (m 0xfe - 1)) := hc.poke (by omega)
      br hc1.at_80f, (decide_eq_false (by rw [hfe1]; omega))
      exact ⟨_, _, .refl _, rfl, rfl, rfl, rfl, rfl, rfl⟩
    obtain ⟨c1, h1, r1, e0, e1, e2, e3, e4, e5⟩ := key
    subst e0
    have hm : ∀ p, p ≠ 0xfe → c1.mem p = c.mem p := fun p k1 => by rw [e5, poke_ne _ _ k1]
    have i1 : AInv A boot k q page c1 h1 := i.keep e1 e2 e3 (fun p hp => hm p (by omega)) (by rw [hm _ (by omega)]; exact i.ptr) (by rw [hm _ (by omega)]; exact i.pg)
    obtain ⟨c2, h2, r2, i2, f1, f2, f3, f4, f5, f6⟩ := fetch_block hA hb hd i1 e4 hall.1 (by rw [hm _ (by omega)]; exact hpg) (by omega)
    have key3 : ∃ e h', A.Runs (c2, h2) (e, h') ∧ (h' = h2 ∧ e.x = c2.x ∧ e.y = c2.y ∧ e.s = c2.s ∧ e.pc = 0x80d ∧ e.mem = c2.mem) := by
      have hc := i2.code
      have h80 : c2.mem 0x80b = 0x24 := by rw [f3, hm _ (by omega)]; exact hsm
      clear i2
      obtain ⟨a, x, y, s, n', z, cf, pc, m⟩ := c2
      simp only at hc f1 h80 ⊢
      subst f1
      ins hc.at_80b_24 h80
      exact ⟨_, _, .refl _, rfl, rfl, rfl, rfl, rfl, rfl⟩
    obtain ⟨c3, h3, r3, g0, g1, g2, g3, g4, g5⟩ := key3
    subst g0
    have i3 : AInv A boot k (q + 1) (page + 1) c3 h3 := i2.keep g1 g2 g3 (fun p hp => by rw [g5]) (by rw [g5]; exact i2.ptr) (by rw [g5]; exact i2.pg)
    obtain ⟨e, h', r4, k1, k2, k3, k4, k5⟩ := ih (q + 1) (page + 1) c3 h3 i3 g4 (by rw [g5, f3, hm _ (by omega)]; exact hsm) (by rw [g5, f4, e5, poke_same]; exact hfe1) (by omega) hall.2 (by omega)
    refine ⟨e, h', r1.trans (r2.trans (r3.trans r4)), ?_, k2, k3, fun p hp => ?_, fun v hv => k5 v (by rw [g5, ← hv.page, ← hm 0x10002 (by omega)]; exact f6)⟩
    · rw [show q + (n + 1) = q + 1 + n by omega, show page + (n + 1) = page + 1 + n by omega]; exact k1
    · rw [k4 p hp, List.range'_succ, List.range'_succ, List.zip_cons_cons, List.foldl_cons]
      refine loads_congr b p _ ?_
      rw [g5, f5 p hp]
      have := loadable_iff.mp hp
      unfold loadPage
      split
      · rfl
      · exact hm p (by omega)

theorem and_1f (v : UInt8) : (v &&& 0x1f).toNat = v.toNat % 32 := by
  rw [UInt8.toNat_and]
  show v.toNat &&& (2 ^ 5 - 1) = _
  rw [Nat.and_two_pow_sub_one_eq_mod]

/-- **the next entry** is in A at 0x81c -/
theorem entry_next {A : Apple} {boot : Bytes} {k q page : Nat} {c : Cpu} {h : Nat} (i : AInv A boot k q page c h) (hpc : c.pc = 0x816) (hk : 0x87 + k < 256) :
    ∃ e h', A.Runs (c, h) (e, h') ∧ h' = h ∧ AInv A boot (k + 1) q page e h ∧ e.pc = 0x81c ∧ e.a = boot.getD (0x87 + k) 0 ∧ ∀ p, p ≠ 0x81a → e.mem p = c.mem p := by
  have hptr : (c.mem 0x81a + 1).toNat = 0x86 + (k + 1) := by rw [u8_add 1 (by rw [i.ptr]; show _ + 1 < 256; omega), i.ptr]; show _ + 1 = _; omega
  have key : ∃ e h', A.Runs (c, h) (e, h') ∧ (h' = h ∧ e.x = c.x ∧ e.y = c.y ∧ e.s = c.s ∧ e.pc = 0x81c ∧ e.mem = poke c.mem 0x81a (c.mem 0x81a + 1) ∧ e.a = boot.getD (0x87 + k) 0) := by
    have hc := i.code
    have hlst := i.lst
    clear i
    obtain ⟨a, x, y, s, n, z, cf, pc, m⟩ := c
    simp only at hc hpc hptr hlst ⊢
    subst hpc
    ins hc.at_816
    have hc1 : ACode (poke m 0x81a (m 0x81a + 1)) := hc.poke (by omega)
    ins hc1.at_819
    refine ⟨_, _, .refl _, rfl, rfl, rfl, rfl, rfl, rfl, ?_⟩
    simp only [poke_same, hptr]
    rw [poke_ne _ _ (by omega), hlst _ (by omega) (by omega), show 0x800 + (0x86 + (k + 1)) - 0x800 = 0x87 + k by omega]
  obtain ⟨e, h', r, e0, e1, e2, e3, e4, e5, e6⟩ := key
  have hm : ∀ p, p ≠ 0x81a → e.mem p = c.mem p := fun p hp => by rw [e5, poke_ne _ _ hp]
  exact ⟨e, h', r, e0, i.keep e1 e2 e3 (fun p hp => hm p (by omega)) (by rw [e5, poke_same]; exact hptr) (by rw [hm _ (by omega)]; exact i.pg), e4, e6, hm⟩

/-- the graphics page shown after an entry -/
def showEntry (v a : UInt8) : UInt8 := if a = 0xd1 then 0 else if a = 0xd2 then 1 else v

/-- what the code at 0x81c does with an entry, apart from reading sectors -/
theorem entry_done {A : Apple} {boot : Bytes} {k q page : Nat} {c : Cpu} {h : Nat} (i : AInv A boot k q page c h) (hpc : c.pc = 0x81c) :
    ∃ e h', A.Runs (c, h) (e, h') ∧ h' = h ∧ e.x = c.x ∧ e.y = c.y ∧ e.s = c.s ∧
      if c.a = 0xc0 then e.pc = 0x884 ∧ e.mem = c.mem
      else if c.a = 0xd0 ∨ c.a = 0xd1 ∨ c.a = 0xd2 then e.pc = 0x816 ∧ (∀ p, p < 0xc000 → e.mem p = c.mem p) ∧
        ∀ v, ShowsHires c.mem v → ShowsHires e.mem (showEntry v c.a)
      else if 0xe0 ≤ c.a.toNat then e.pc = 0x80b ∧ e.mem = poke (poke c.mem 0xfe (c.a &&& 0x1f)) 0x80b 0x24
      else e.pc = 0x847 ∧ e.mem = poke c.mem 0x27 c.a := by
  have hc := i.code
  clear i
  obtain ⟨a, x, y, s, n, z, cf, pc, m⟩ := c
  simp only at hc hpc ⊢
  subst hpc
  ins hc.at_81c
  rw [isZero_sub]
  by_cases h1 : a = 0xc0
  · br hc.at_81e, (decide_eq_true h1)
    refine ⟨_, _, .refl _, rfl, rfl, rfl, rfl, ?_⟩
    rw [if_pos h1]
    exact ⟨rfl, rfl⟩
  · simp only [if_neg h1]
    nobr hc.at_81e, (decide_eq_false h1)
    ins hc.at_820
    rw [isZero_sub]
    by_cases h2 : a = 0xd0
    · br hc.at_822, (decide_eq_true h2)
      refine ⟨_, _, .refl _, rfl, rfl, rfl, rfl, ?_⟩
      rw [if_pos (Or.inl h2)]
      exact ⟨rfl, fun _ _ => rfl, fun v hv => by subst h2; exact hv⟩
    · nobr hc.at_822, (decide_eq_false h2)
      ins hc.at_824
      rw [isZero_sub]
      by_cases h3 : a = 0xd1
      · nobr hc.at_826, (decide_eq_true h3)
        sw hc.at_828, 4
        br ((hc.poke (by omega)).poke (by omega)).at_82b, (decide_eq_true h3)
        refine ⟨_, _, .refl _, rfl, rfl, rfl, rfl, ?_⟩
        rw [if_pos (Or.inr (Or.inl h3))]
        refine ⟨rfl, fun p hp => by simp only; rw [poke_ne _ _ (by omega), poke_ne _ _ (by omega)], fun v hv => ?_⟩
        subst h3
        exact ⟨by simp only; rw [poke_ne _ _ (by omega), poke_ne _ _ (by omega)]; exact hv.graphics, by simp only; rw [poke_ne _ _ (by omega), poke_ne _ _ (by omega)]; exact hv.whole,
          by simp only; rw [poke_same]; rfl, by simp only; rw [poke_ne _ _ (by omega), poke_ne _ _ (by omega)]; exact hv.high⟩
      · br hc.at_826, (decide_eq_false h3)
        ins hc.at_82d
        rw [isZero_sub]
        by_cases h4 : a = 0xd2
        · nobr hc.at_82f, (decide_eq_true h4)
          sw hc.at_831, 5
          br ((hc.poke (by omega)).poke (by omega)).at_834, (decide_eq_true h4)
          refine ⟨_, _, .refl _, rfl, rfl, rfl, rfl, ?_⟩
          rw [if_pos (Or.inr (Or.inr h4))]
          refine ⟨rfl, fun p hp => by simp only; rw [poke_ne _ _ (by omega), poke_ne _ _ (by omega)], fun v hv => ?_⟩
          subst h4
          exact ⟨by simp only; rw [poke_ne _ _ (by omega), poke_ne _ _ (by omega)]; exact hv.graphics, by simp only; rw [poke_ne _ _ (by omega), poke_ne _ _ (by omega)]; exact hv.whole,
            by simp only; rw [poke_same]; rfl, by simp only; rw [poke_ne _ _ (by omega), poke_ne _ _ (by omega)]; exact hv.high⟩
        · br hc.at_82f, (decide_eq_false h4)
          have h6 : ¬ (a = 0xd0 ∨ a = 0xd1 ∨ a = 0xd2) := by rintro (h | h | h) <;> contradiction
          simp only [if_neg h6]
          ins hc.at_836
          by_cases h5 : 0xe0 ≤ a.toNat
          · simp only [if_pos h5]
            nobr hc.at_838, (decide_eq_true h5)
            ins hc.at_83a
            ins hc.at_83c
            ins (hc.poke (by omega)).at_83e
            ins (hc.poke (by omega)).at_840
            br ((hc.poke (by omega)).poke (by omega)).at_843, rfl
            exact ⟨_, _, .refl _, rfl, rfl, rfl, rfl, rfl, rfl⟩
          · simp only [if_neg h5]
            br hc.at_838, (decide_eq_false h5)
            ins hc.at_845
            exact ⟨_, _, .refl _, rfl, rfl, rfl, rfl, rfl, rfl⟩

theorem u8_c0 {a : UInt8} : a = 0xc0 ↔ a.toNat = 0xc0 := UInt8.toNat_inj.symm
theorem u8_d0 {a : UInt8} : a = 0xd0 ↔ a.toNat = 0xd0 := UInt8.toNat_inj.symm
theorem u8_d1 {a : UInt8} : a = 0xd1 ↔ a.toNat = 0xd1 := UInt8.toNat_inj.symm
theorem u8_d2 {a : UInt8} : a = 0xd2 ↔ a.toNat = 0xd2 := UInt8.toNat_inj.symm

theorem showEntry_other {v a : UInt8} (h1 : ¬ a.toNat = 0xd1) (h2 : ¬ a.toNat = 0xd2) : showEntry v a = v := by
  unfold showEntry
  rw [if_neg (fun h => h1 (u8_d1.mp h)), if_neg (fun h => h2 (u8_d2.mp h))]

/-- **entries of the address list** before its end: what they load and the graphics page they leave on the screen -/
theorem list_prefix {A : Apple} (hA : A.slot < 8) {b : Bytes} (hb : b.length = 143360) (hd : A.disk = dskDisk b) {boot : Bytes} (bs : List UInt8) :
    ∀ (as : List UInt8) (k q page : Nat) (c : Cpu) (h : Nat) (L : List (Nat × Nat)), AInv A boot k q page c h → c.pc = 0x816 → c.mem 0x80b = 0xd0 →
      0x87 + k + as.length ≤ 256 → (∀ i < as.length, boot.getD (0x87 + k + i) 0 = as.getD i 0) → (∀ a ∈ as, a.toNat ≠ 0xc0) →
      runLoader (as ++ bs) page (q + 1) = some L → (∀ l ∈ L, l.2 < 560) → q < 560 →
    ∃ e h' q' page' L1 L2, A.Runs (c, h) (e, h') ∧ AInv A boot (k + as.length) q' page' e h' ∧ e.pc = 0x816 ∧ e.mem 0x80b = 0xd0 ∧ q' < 560 ∧ L = L1 ++ L2 ∧
      runLoader bs page' (q' + 1) = some L2 ∧ (∀ cs, runLoader (as ++ cs) page (q + 1) = (runLoader cs page' (q' + 1)).map (L1 ++ ·)) ∧
      (∀ p, loadable (p / 256) = true → e.mem p = L1.foldl (loadPage b) c.mem p) ∧ ∀ v, ShowsHires c.mem v → ShowsHires e.mem (as.foldl showEntry v) := by
  intro as
  induction as with
  | nil =>
    intro k q page c h L i hpc h80 hlen hl hc0 hr hL hq
    exact ⟨c, h, q, page, [], L, .refl _, i, hpc, h80, hq, rfl, hr, fun cs => by simp, fun _ _ => rfl, fun v hv => hv⟩
  | cons a as ih =>
    intro k q page c h L i hpc h80 hlen hl hc0 hr hL hq
    rw [List.length_cons] at hlen hl ⊢
    have hc0' : ∀ a ∈ as, a.toNat ≠ 0xc0 := fun x hx => hc0 x (List.mem_cons_of_mem _ hx)
    have hk : k + (as.length + 1) = k + 1 + as.length := by omega
    rw [hk]
    have hl' : ∀ i < as.length, boot.getD (0x87 + (k + 1) + i) 0 = as.getD i 0 := by
      intro j hj
      have := hl (j + 1) (by omega)
      rw [List.getD_cons_succ] at this
      rw [← this, show 0x87 + (k + 1) + j = 0x87 + k + (j + 1) by omega]
    obtain ⟨c1, h1, r1, a0, i1, a1, a2, a3⟩ := entry_next i hpc (by omega)
    subst a0
    have ha : c1.a = a := by rw [a2]; exact hl 0 (by omega)
    have m1 : ∀ p, loadable (p / 256) = true → c1.mem p = c.mem p := by
      intro p hp
      have := loadable_iff.mp hp
      exact a3 p (by omega)
    have s1 : ∀ v, ShowsHires c.mem v → ShowsHires c1.mem v := fun v hv => hv.keep fun p hp => a3 p (by omega)
    obtain ⟨c2, h2, r2, b0, b1, b2, b3, b4⟩ := entry_done i1 a1
    subst b0
    rw [ha] at b4
    simp only [List.cons_append, runLoader] at hr ⊢
    have e1 : ¬ a.toNat = 0xc0 := hc0 a List.mem_cons_self
    rw [if_neg e1] at hr
    rw [if_neg (fun h => e1 (u8_c0.mp h))] at b4
    simp only [if_neg e1, List.foldl_cons]
    by_cases e2 : a.toNat = 0xd0 ∨ a.toNat = 0xd1 ∨ a.toNat = 0xd2
    · -- nothing is loaded
      rw [if_pos e2] at hr
      rw [if_pos (e2.imp u8_d0.mpr (Or.imp u8_d1.mpr u8_d2.mpr))] at b4
      simp only [if_pos e2]
      have i2 : AInv A boot (k + 1) q page c2 h2 := i1.keep b1 b2 b3 (fun p hp => b4.2.1 p (by omega)) (by rw [b4.2.1 _ (by omega)]; exact i1.ptr) (by rw [b4.2.1 _ (by omega)]; exact i1.pg)
      obtain ⟨e, h', q', page', L1, L2, r3, f3, f4, f5, f6, f7, f8, f9, f2, f10⟩ := ih (k + 1) q page c2 h2 L i2 b4.1 (by rw [b4.2.1 _ (by omega), a3 _ (by omega)]; exact h80) (by omega) hl' hc0' hr hL hq
      refine ⟨e, h', q', page', L1, L2, r1.trans (r2.trans r3), f3, f4, f5, f6, f7, f8, f9, fun p hp => ?_, fun v hv => f10 _ (b4.2.2 v (s1 v hv))⟩
      have := loadable_iff.mp hp
      rw [f2 p hp]
      refine loads_congr b p L1 ?_
      rw [b4.2.1 p (by omega)]; exact m1 p hp
    · rw [if_neg e2] at hr
      rw [if_neg (fun h => e2 (h.imp u8_d0.mp (Or.imp u8_d1.mp u8_d2.mp)))] at b4
      simp only [if_neg e2, showEntry_other (fun h => e2 (Or.inr (Or.inl h))) (fun h => e2 (Or.inr (Or.inr h)))]
      by_cases e3 : 0xe0 ≤ a.toNat
      · -- more pages
        rw [if_pos e3] at hr b4
        simp only [if_pos e3]
        by_cases hall : (List.range' page (a.toNat % 32)).all loadable = true
        · rw [if_pos hall] at hr
          simp only [if_pos hall]
          cases hr' : runLoader (as ++ bs) (page + a.toNat % 32) (q + 1 + a.toNat % 32) with
          | none => rw [hr'] at hr; cases hr
          | some L' =>
            rw [hr'] at hr
            injection hr with hr
            subst hr
            have hq' : q + a.toNat % 32 < 560 := by
              by_cases hn : a.toNat % 32 = 0
              · omega
              · have := hL (page + (a.toNat % 32 - 1), q + 1 + (a.toNat % 32 - 1)) (List.mem_append_left _ (by
                  rw [List.mem_iff_getElem?]
                  refine ⟨a.toNat % 32 - 1, ?_⟩
                  rw [List.getElem?_zip_eq_some, List.getElem?_range' (by omega), List.getElem?_range' (by omega)]
                  simp))
                simp only at this
                omega
            have hm : ∀ p, p ≠ 0xfe → p ≠ 0x80b → c2.mem p = c1.mem p := fun p k1 k2 => by rw [b4.2, poke_ne _ _ k2, poke_ne _ _ k1]
            have h24 : c2.mem 0x80b = 0x24 := by rw [b4.2, poke_same]
            have hfe : c2.mem 0xfe = a &&& 0x1f := by rw [b4.2, poke_ne _ _ (by omega), poke_same]
            have i2 : AInv A boot (k + 1) q page c2 h2 := i1.keep b1 b2 b3 (fun p hp => hm p (by omega) (by omega)) (by rw [hm _ (by omega) (by omega)]; exact i1.ptr)
              (by rw [hm _ (by omega) (by omega)]; exact i1.pg)
            have key3 : ∃ e h', A.Runs (c2, h2) (e, h') ∧ (h' = h2 ∧ e.x = c2.x ∧ e.y = c2.y ∧ e.s = c2.s ∧ e.pc = 0x80d ∧ e.mem = c2.mem) := by
              have hc := i2.code
              have hpc2 := b4.1
              clear i2 b4 b1 b2 b3 r2
              obtain ⟨a', x, y, s, n', z, cf, pc, m⟩ := c2
              simp only at hc hpc2 h24 ⊢
              subst hpc2
              ins hc.at_80b_24 h24
              exact ⟨_, _, .refl _, rfl, rfl, rfl, rfl, rfl, rfl⟩
            obtain ⟨c3, h3, r3, g0, g1, g2, g3, g4, g5⟩ := key3
            subst g0
            have i3 : AInv A boot (k + 1) q page c3 h3 := i2.keep g1 g2 g3 (fun p hp => by rw [g5]) (by rw [g5]; exact i2.ptr) (by rw [g5]; exact i2.pg)
            obtain ⟨c4, h4, r4, i4, k1, k2, k3, k4⟩ := burst_block hA hb hd (a.toNat % 32) q page c3 h3 i3 g4 (by rw [g5]; exact h24) (by rw [g5, hfe, and_1f]) (by omega) hall hq'
            obtain ⟨e, h', q', page', L1, L2, r5, f3, f4, f5, f6, f7, f8, f9, f2, f10⟩ := ih (k + 1) (q + a.toNat % 32) (page + a.toNat % 32) c4 h4 L' i4 k1 k2 (by omega) hl' hc0'
              (by rw [show q + a.toNat % 32 + 1 = q + 1 + a.toNat % 32 by omega]; exact hr') (fun l hl => hL l (List.mem_append_right _ hl)) hq'
            refine ⟨e, h', q', page', _ ++ L1, L2, r1.trans (r2.trans (r3.trans (r4.trans r5))), f3, f4, f5, f6, by rw [f7, List.append_assoc], f8, fun cs => ?_, fun p hp => ?_,
              fun v hv => f10 v (k4 v (by rw [g5]; exact (s1 v hv).keep fun p hp => hm p (by omega) (by omega)))⟩
            · rw [show q + 1 + a.toNat % 32 = q + a.toNat % 32 + 1 by omega, f9 cs]
              cases runLoader cs page' (q' + 1) <;> simp
            have := loadable_iff.mp hp
            rw [f2 p hp, List.foldl_append]
            refine loads_congr b p L1 ?_
            rw [k3 p hp]
            refine loads_congr b p _ ?_
            rw [g5, hm p (by omega) (by omega)]; exact m1 p hp
        · rw [if_neg hall] at hr; cases hr
      · -- a page
        rw [if_neg e3] at hr b4
        simp only [if_neg e3]
        by_cases hload : loadable a.toNat = true
        · rw [if_pos hload] at hr
          simp only [if_pos hload]
          cases hr' : runLoader (as ++ bs) (a.toNat + 1) (q + 1 + 1) with
          | none => rw [hr'] at hr; cases hr
          | some L' =>
            rw [hr'] at hr
            injection hr with hr
            subst hr
            have hq1 : q + 1 < 560 := hL _ List.mem_cons_self
            have hm : ∀ p, p ≠ 0x27 → c2.mem p = c1.mem p := fun p k1 => by rw [b4.2, poke_ne _ _ k1]
            have h27 : (c2.mem 0x27).toNat = a.toNat := by rw [b4.2, poke_same]
            have i2 : AInv A boot (k + 1) q a.toNat c2 h2 := i1.keep b1 b2 b3 (fun p hp => hm p (by omega)) (by rw [hm _ (by omega)]; exact i1.ptr) (Or.inr h27)
            obtain ⟨c3, h3, r3, i3, g1, g2, g3, g4, g5, g6⟩ := fetch_block hA hb hd i2 b4.1 hload h27 hq1
            have h80' : c3.mem 0x80b = 0xd0 := by rw [g3, hm _ (by omega), a3 _ (by omega)]; exact h80
            have key4 : ∃ e h', A.Runs (c3, h3) (e, h') ∧ (h' = h3 ∧ e.x = c3.x ∧ e.y = c3.y ∧ e.s = c3.s ∧ e.pc = 0x816 ∧ e.mem = c3.mem) := by
              have hc := i3.code
              clear i3 g3 g4 g5 g6 r3
              obtain ⟨a', x, y, s, n', z, cf, pc, m⟩ := c3
              simp only at hc g1 g2 h80' ⊢
              subst g1
              br hc.at_80b_d0 h80', g2
              exact ⟨_, _, .refl _, rfl, rfl, rfl, rfl, rfl, rfl⟩
            obtain ⟨c4, h4, r4, k0, k1, k2, k3, k4, k5⟩ := key4
            subst k0
            have i4 : AInv A boot (k + 1) (q + 1) (a.toNat + 1) c4 h4 := i3.keep k1 k2 k3 (fun p hp => by rw [k5]) (by rw [k5]; exact i3.ptr) (by rw [k5]; exact i3.pg)
            obtain ⟨e, h', q', page', L1, L2, r5, f3, f4, f5, f6, f7, f8, f9, f2, f10⟩ := ih (k + 1) (q + 1) (a.toNat + 1) c4 h4 L' i4 k4 (by rw [k5]; exact h80') (by omega) hl' hc0' hr' (fun l hl => hL l (List.mem_cons_of_mem _ hl)) hq1
            refine ⟨e, h', q', page', (a.toNat, q + 1) :: L1, L2, r1.trans (r2.trans (r3.trans (r4.trans r5))), f3, f4, f5, f6, by rw [f7, List.cons_append], f8, fun cs => ?_, fun p hp => ?_,
              fun v hv => f10 v (by rw [k5, ← (s1 v hv).page, ← hm 0x10002 (by omega)]; exact g6)⟩
            · rw [f9 cs]
              cases runLoader cs page' (q' + 1) <;> simp
            have := loadable_iff.mp hp
            rw [f2 p hp, List.foldl_cons]
            refine loads_congr b p L1 ?_
            rw [k5, g5 p hp]
            unfold loadPage
            split
            · rfl
            · rw [hm p (by omega)]; exact m1 p hp
        · rw [if_neg hload] at hr; cases hr

/-- **the end of the list**: the jump -/
theorem list_end {A : Apple} {boot : Bytes} {k q page : Nat} {c : Cpu} {h : Nat} (i : AInv A boot k q page c h) (hpc : c.pc = 0x816) (hk : 0x87 + k < 256)
    (ha : boot.getD (0x87 + k) 0 = 0xc0) :
    ∃ e h', A.Runs (c, h) (e, h') ∧ e.pc = word (boot.getD 133 0) (boot.getD 134 0) ∧ ∀ p, p ≠ 0x81a → e.mem p = c.mem p := by
  obtain ⟨c1, h1, r1, a0, i1, a1, a2, a3⟩ := entry_next i hpc hk
  subst a0
  obtain ⟨c2, h2, r2, b0, b1, b2, b3, b4⟩ := entry_done i1 a1
  subst b0
  rw [a2, if_pos ha] at b4
  have i2 : AInv A boot (k + 1) q page c2 h2 := i1.keep b1 b2 b3 (fun p hp => by rw [b4.2]) (by rw [b4.2]; exact i1.ptr) (by rw [b4.2]; exact i1.pg)
  have key : ∃ e h', A.Runs (c2, h2) (e, h') ∧ (e.pc = word (c2.mem 0x885) (c2.mem 0x886) ∧ e.mem = c2.mem) := by
    have hc := i2.code
    have hpc2 := b4.1
    clear i2 b4 b1 b2 b3 r2
    obtain ⟨a, x, y, s, n, z, cf, pc, m⟩ := c2
    simp only at hc hpc2 ⊢
    subst hpc2
    ins hc.at_884
    exact ⟨_, _, .refl _, rfl, rfl⟩
  obtain ⟨e, h', r3, f1, f2⟩ := key
  refine ⟨e, h', r1.trans (r2.trans r3), ?_, fun p hp => ?_⟩
  · rw [f1, i2.lst _ (by omega) (by omega), i2.lst _ (by omega) (by omega)]
  · rw [f2, b4.2]; exact a3 p hp

/-- a list the loader gets through has an end -/
theorem runLoader_end : ∀ (as : List UInt8) (page j : Nat) {L : List (Nat × Nat)}, runLoader as page j = some L → (0xc0 : UInt8) ∈ as
  | [], _, _, _, h => by cases h
  | a :: as, page, j, L, h => by
    simp only [runLoader] at h
    by_cases e1 : a.toNat = 0xc0
    · rw [u8_c0.mpr e1]; exact List.mem_cons_self
    · rw [if_neg e1] at h
      refine List.mem_cons_of_mem _ ?_
      split at h
      · exact runLoader_end as _ _ h
      · split at h
        · split at h
          · obtain ⟨L', h', _⟩ := Option.map_eq_some_iff.mp h
            exact runLoader_end as _ _ h'
          · cases h
        · split at h
          · obtain ⟨L', h', _⟩ := Option.map_eq_some_iff.mp h
            exact runLoader_end as _ _ h'
          · cases h

/-- **the address list** -/
theorem list_block {A : Apple} (hA : A.slot < 8) {b : Bytes} (hb : b.length = 143360) (hd : A.disk = dskDisk b) {boot : Bytes} :
    ∀ (as : List UInt8) (k q page : Nat) (c : Cpu) (h : Nat) (L : List (Nat × Nat)), AInv A boot k q page c h → c.pc = 0x816 → c.mem 0x80b = 0xd0 →
      0x87 + k + as.length ≤ 256 → (∀ i < as.length, boot.getD (0x87 + k + i) 0 = as.getD i 0) → runLoader as page (q + 1) = some L → (∀ l ∈ L, l.2 < 560) → q < 560 →
    ∃ e h', A.Runs (c, h) (e, h') ∧ e.pc = word (boot.getD 133 0) (boot.getD 134 0) ∧ ∀ p, loadable (p / 256) = true → e.mem p = L.foldl (loadPage b) c.mem p := by
  intro as k q page c h L i hpc h80 hlen hl hr hL hq
  obtain ⟨pre, post, rfl, hno⟩ := List.eq_append_cons_of_mem (runLoader_end as _ _ hr)
  rw [List.length_append, List.length_cons] at hlen hl
  obtain ⟨c1, h1, q', page', L1, L2, r1, i1, a1, a2, a3, a4, a5, _, a6, _⟩ := list_prefix hA hb hd (0xc0 :: post) pre k q page c h L i hpc h80 (by omega)
    (fun j hj => by rw [hl j (by omega), List.getD_eq_getElem?_getD, List.getElem?_append_left hj, ← List.getD_eq_getElem?_getD])
    (fun a ha h => hno (by rw [← u8_c0.mpr h]; exact ha)) hr hL hq
  have hL2 : L2 = [] := by
    simp only [runLoader] at a5
    rw [if_pos (by decide)] at a5
    exact (Option.some.inj a5).symm
  subst hL2
  rw [List.append_nil] at a4
  subst a4
  obtain ⟨e, h', r2, e1, e2⟩ := list_end i1 a1 (by omega) (by
    rw [← Nat.add_assoc, hl pre.length (by omega), List.getD_eq_getElem?_getD, List.getElem?_append_right (Nat.le_refl _), Nat.sub_self]
    rfl)
  refine ⟨e, h', r1.trans r2, e1, fun p hp => ?_⟩
  have := loadable_iff.mp hp
  rw [e2 p (by omega), a6 p hp]

end Atr
