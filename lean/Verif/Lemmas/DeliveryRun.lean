import Verif.Lemmas.KBootRun
import Verif.Model.Delivery
import Verif.Spec.Apple2
/-! # The boot code of Standard Delivery disks, instruction by instruction -/
namespace Atr

theorem Apple.Runs.trans {A : Apple} {c d e : Cpu × Nat} (h1 : A.Runs c d) (h2 : A.Runs d e) : A.Runs c e := by
  induction h1 with
  | refl => exact h2
  | step h _ ih => exact .step h (ih h2)

/-- the boot code in memory, but for the two bytes it changes itself -/
def ACode (m : Nat → UInt8) : Prop := ∀ p, 0x801 ≤ p → p < 0x885 → p ≠ 0x80b → p ≠ 0x81a → m p = fstbtCode.getD (p - 0x800) 0

/-- the boot code alone -/
def acodeMem (p : Nat) : UInt8 := fstbtCode.getD (p - 0x800) 0

theorem ACode.decode {m} (h : ACode m) {p : Nat} (hp : 0x801 ≤ p) (hq : p < 0x883) (hn : (p + 2 < 0x80b ∨ 0x80b < p) ∧ (p + 2 < 0x81a ∨ 0x81a < p)) :
    decode6502 m p = decode6502 acodeMem p := by
  have e : ∀ q, p ≤ q → q ≤ p + 2 → m q = acodeMem q := fun q h1 h2 => h q (by omega) (by omega) (by omega) (by omega)
  refine decode_congr (e _ (by omega) (by omega)) ?_ ?_
  · rw [Nat.mod_eq_of_lt (by omega)]; exact e _ (by omega) (by omega)
  · rw [Nat.mod_eq_of_lt (by omega)]; exact e _ (by omega) (by omega)

theorem ACode.keep {m m' : Nat → UInt8} (h : ACode m) (hm : ∀ p, 0x801 ≤ p → p < 0x885 → p ≠ 0x80b → p ≠ 0x81a → m' p = m p) : ACode m' :=
  fun p h1 h2 h3 h4 => (hm p h1 h2 h3 h4).trans (h p h1 h2 h3 h4)

theorem ACode.poke {m} (h : ACode m) {a : Nat} {v : UInt8} (ha : a < 0x801 ∨ 0x885 ≤ a ∨ a = 0x80b ∨ a = 0x81a) : ACode (poke m a v) :=
  h.keep fun p h1 h2 h3 h4 => poke_ne _ _ (by omega)

/-- one instruction -/
theorem aruns1 {A : Apple} {c : Cpu} {h : Nat} {i : Ins6502} {len : Nat} {P : Cpu → Nat → Prop} (hd : decode6502 c.mem c.pc = some (i, len)) (hp : c.pc < 0x1000)
    (hn : ∃ e h', A.Runs (({ c with pc := (c.pc + len) % 0x10000 } : Cpu).exec i, A.head { c with pc := (c.pc + len) % 0x10000 } h i) (e, h') ∧ P e h')
    (hsw : softSwitch i = none := by rfl) : ∃ e h', A.Runs (c, h) (e, h') ∧ P e h' := by
  obtain ⟨e, h', h1, h2⟩ := hn
  refine ⟨e, h', .step ?_ h1, h2⟩
  unfold Apple.step
  simp only
  rw [if_neg (by omega), if_neg (by omega), if_neg (by omega), hd]
  simp only
  rw [hsw]

/-- an instruction that uses a switch of the display -/
theorem aruns_sw {A : Apple} {c : Cpu} {h : Nat} {r : Reg6502} {a len : Nat} (k : Nat) {P : Cpu → Nat → Prop} (hd : decode6502 c.mem c.pc = some (.st r (.abs a), len))
    (hsw : softSwitch (.st r (.abs a)) = some k) (hp : c.pc < 0x1000)
    (hn : ∃ e h', A.Runs (flipSwitch k (({ c with pc := (c.pc + len) % 0x10000 } : Cpu).exec (.st r (.abs a))), h) (e, h') ∧ P e h') :
    ∃ e h', A.Runs (c, h) (e, h') ∧ P e h' := by
  obtain ⟨e, h', h1, h2⟩ := hn
  refine ⟨e, h', .step ?_ h1, h2⟩
  unfold Apple.step
  simp only
  rw [if_neg (by omega), if_neg (by omega), if_neg (by omega), hd]
  simp only
  rw [hsw]
  rfl

theorem aruns_br {A : Apple} {c : Cpu} {h : Nat} {f v t} {P : Cpu → Nat → Prop} (hd : decode6502 c.mem c.pc = some (.br f v t, 2)) (hp : c.pc < 0x1000)
    (hf : c.flag f = v) (hn : ∃ e h', A.Runs ({ c with pc := t }, h) (e, h') ∧ P e h') : ∃ e h', A.Runs (c, h) (e, h') ∧ P e h' := by
  refine aruns1 hd hp ?_
  have e : (({ c with pc := (c.pc + 2) % 0x10000 } : Cpu).exec (.br f v t)) = { c with pc := t } := by
    unfold Cpu.exec
    cases f <;> exact if_pos hf
  rw [e]
  exact hn

theorem aruns_no_br {A : Apple} {c : Cpu} {h : Nat} {f v t} {P : Cpu → Nat → Prop} (hd : decode6502 c.mem c.pc = some (.br f v t, 2)) (hp : c.pc < 0x1000)
    (hf : c.flag f = !v) (hn : ∃ e h', A.Runs ({ c with pc := (c.pc + 2) % 0x10000 }, h) (e, h') ∧ P e h') : ∃ e h', A.Runs (c, h) (e, h') ∧ P e h' := by
  refine aruns1 hd hp ?_
  have e : (({ c with pc := (c.pc + 2) % 0x10000 } : Cpu).exec (.br f v t)) = { c with pc := (c.pc + 2) % 0x10000 } := by
    unfold Cpu.exec
    cases f <;> exact if_neg (fun h' => by have := hf.symm.trans h'; cases v <;> cases this)
  rw [e]
  exact hn

/-! ### the instructions -/

theorem ACode.at_801 {m} (h : ACode m) : decode6502 m 0x801 = some (.tay, 1) := (h.decode (by decide) (by decide) (by decide)).trans rfl
theorem ACode.at_802 {m} (h : ACode m) : decode6502 m 0x802 = some (.st .a (.abs 0xc050), 3) := (h.decode (by decide) (by decide) (by decide)).trans rfl
theorem ACode.at_805 {m} (h : ACode m) : decode6502 m 0x805 = some (.st .a (.abs 0xc052), 3) := (h.decode (by decide) (by decide) (by decide)).trans rfl
theorem ACode.at_808 {m} (h : ACode m) : decode6502 m 0x808 = some (.st .a (.abs 0xc057), 3) := (h.decode (by decide) (by decide) (by decide)).trans rfl
theorem ACode.at_80d {m} (h : ACode m) : decode6502 m 0x80d = some (.dec 0xfe, 2) := (h.decode (by decide) (by decide) (by decide)).trans rfl
theorem ACode.at_80f {m} (h : ACode m) : decode6502 m 0x80f = some (.br .n false 0x847, 2) := (h.decode (by decide) (by decide) (by decide)).trans rfl
theorem ACode.at_811 {m} (h : ACode m) : decode6502 m 0x811 = some (.ld .a (.imm 0xd0), 2) := (h.decode (by decide) (by decide) (by decide)).trans rfl
theorem ACode.at_813 {m} (h : ACode m) : decode6502 m 0x813 = some (.st .a (.abs 0x80b), 3) := (h.decode (by decide) (by decide) (by decide)).trans rfl
theorem ACode.at_816 {m} (h : ACode m) : decode6502 m 0x816 = some (.inc 0x81a, 3) := (h.decode (by decide) (by decide) (by decide)).trans rfl
theorem ACode.at_81c {m} (h : ACode m) : decode6502 m 0x81c = some (.cmp .a (.imm 0xc0), 2) := (h.decode (by decide) (by decide) (by decide)).trans rfl
theorem ACode.at_81e {m} (h : ACode m) : decode6502 m 0x81e = some (.br .z true 0x884, 2) := (h.decode (by decide) (by decide) (by decide)).trans rfl
theorem ACode.at_820 {m} (h : ACode m) : decode6502 m 0x820 = some (.cmp .a (.imm 0xd0), 2) := (h.decode (by decide) (by decide) (by decide)).trans rfl
theorem ACode.at_822 {m} (h : ACode m) : decode6502 m 0x822 = some (.br .z true 0x816, 2) := (h.decode (by decide) (by decide) (by decide)).trans rfl
theorem ACode.at_824 {m} (h : ACode m) : decode6502 m 0x824 = some (.cmp .a (.imm 0xd1), 2) := (h.decode (by decide) (by decide) (by decide)).trans rfl
theorem ACode.at_826 {m} (h : ACode m) : decode6502 m 0x826 = some (.br .z false 0x82d, 2) := (h.decode (by decide) (by decide) (by decide)).trans rfl
theorem ACode.at_828 {m} (h : ACode m) : decode6502 m 0x828 = some (.st .a (.abs 0xc054), 3) := (h.decode (by decide) (by decide) (by decide)).trans rfl
theorem ACode.at_82b {m} (h : ACode m) : decode6502 m 0x82b = some (.br .z true 0x816, 2) := (h.decode (by decide) (by decide) (by decide)).trans rfl
theorem ACode.at_82d {m} (h : ACode m) : decode6502 m 0x82d = some (.cmp .a (.imm 0xd2), 2) := (h.decode (by decide) (by decide) (by decide)).trans rfl
theorem ACode.at_82f {m} (h : ACode m) : decode6502 m 0x82f = some (.br .z false 0x836, 2) := (h.decode (by decide) (by decide) (by decide)).trans rfl
theorem ACode.at_831 {m} (h : ACode m) : decode6502 m 0x831 = some (.st .a (.abs 0xc055), 3) := (h.decode (by decide) (by decide) (by decide)).trans rfl
theorem ACode.at_834 {m} (h : ACode m) : decode6502 m 0x834 = some (.br .z true 0x816, 2) := (h.decode (by decide) (by decide) (by decide)).trans rfl
theorem ACode.at_836 {m} (h : ACode m) : decode6502 m 0x836 = some (.cmp .a (.imm 0xe0), 2) := (h.decode (by decide) (by decide) (by decide)).trans rfl
theorem ACode.at_838 {m} (h : ACode m) : decode6502 m 0x838 = some (.br .c false 0x845, 2) := (h.decode (by decide) (by decide) (by decide)).trans rfl
theorem ACode.at_83a {m} (h : ACode m) : decode6502 m 0x83a = some (.and (.imm 0x1f), 2) := (h.decode (by decide) (by decide) (by decide)).trans rfl
theorem ACode.at_83c {m} (h : ACode m) : decode6502 m 0x83c = some (.st .a (.abs 0xfe), 2) := (h.decode (by decide) (by decide) (by decide)).trans rfl
theorem ACode.at_83e {m} (h : ACode m) : decode6502 m 0x83e = some (.ld .a (.imm 0x24), 2) := (h.decode (by decide) (by decide) (by decide)).trans rfl
theorem ACode.at_840 {m} (h : ACode m) : decode6502 m 0x840 = some (.st .a (.abs 0x80b), 3) := (h.decode (by decide) (by decide) (by decide)).trans rfl
theorem ACode.at_843 {m} (h : ACode m) : decode6502 m 0x843 = some (.br .n false 0x80b, 2) := (h.decode (by decide) (by decide) (by decide)).trans rfl
theorem ACode.at_845 {m} (h : ACode m) : decode6502 m 0x845 = some (.st .a (.abs 0x27), 2) := (h.decode (by decide) (by decide) (by decide)).trans rfl
theorem ACode.at_847 {m} (h : ACode m) : decode6502 m 0x847 = some (.iny, 1) := (h.decode (by decide) (by decide) (by decide)).trans rfl
theorem ACode.at_848 {m} (h : ACode m) : decode6502 m 0x848 = some (.cmp .y (.imm 0x10), 2) := (h.decode (by decide) (by decide) (by decide)).trans rfl
theorem ACode.at_84a {m} (h : ACode m) : decode6502 m 0x84a = some (.br .c false 0x855, 2) := (h.decode (by decide) (by decide) (by decide)).trans rfl
theorem ACode.at_84c {m} (h : ACode m) : decode6502 m 0x84c = some (.br .z true 0x853, 2) := (h.decode (by decide) (by decide) (by decide)).trans rfl
theorem ACode.at_84e {m} (h : ACode m) : decode6502 m 0x84e = some (.jsr 0x867, 3) := (h.decode (by decide) (by decide) (by decide)).trans rfl
theorem ACode.at_851 {m} (h : ACode m) : decode6502 m 0x851 = some (.tay, 1) := (h.decode (by decide) (by decide) (by decide)).trans rfl
theorem ACode.at_852 {m} (h : ACode m) : decode6502 m 0x852 = some (.bit (.abs 0x1a0), 3) := (h.decode (by decide) (by decide) (by decide)).trans rfl
theorem ACode.at_855 {m} (h : ACode m) : decode6502 m 0x855 = some (.st .y (.abs 0x3d), 2) := (h.decode (by decide) (by decide) (by decide)).trans rfl
theorem ACode.at_857 {m} (h : ACode m) : decode6502 m 0x857 = some (.iny, 1) := (h.decode (by decide) (by decide) (by decide)).trans rfl
theorem ACode.at_858 {m} (h : ACode m) : decode6502 m 0x858 = some (.ld .a (.abs 0x27), 2) := (h.decode (by decide) (by decide) (by decide)).trans rfl
theorem ACode.at_85a {m} (h : ACode m) : decode6502 m 0x85a = some (.br .z true 0x816, 2) := (h.decode (by decide) (by decide) (by decide)).trans rfl
theorem ACode.at_85c {m} (h : ACode m) : decode6502 m 0x85c = some (.txa, 1) := (h.decode (by decide) (by decide) (by decide)).trans rfl
theorem ACode.at_85d {m} (h : ACode m) : decode6502 m 0x85d = some (.jsr 0xf87b, 3) := (h.decode (by decide) (by decide) (by decide)).trans rfl
theorem ACode.at_860 {m} (h : ACode m) : decode6502 m 0x860 = some (.or (.imm 0xc0), 2) := (h.decode (by decide) (by decide) (by decide)).trans rfl
theorem ACode.at_862 {m} (h : ACode m) : decode6502 m 0x862 = some (.pha, 1) := (h.decode (by decide) (by decide) (by decide)).trans rfl
theorem ACode.at_863 {m} (h : ACode m) : decode6502 m 0x863 = some (.ld .a (.imm 0x5b), 2) := (h.decode (by decide) (by decide) (by decide)).trans rfl
theorem ACode.at_865 {m} (h : ACode m) : decode6502 m 0x865 = some (.pha, 1) := (h.decode (by decide) (by decide) (by decide)).trans rfl
theorem ACode.at_866 {m} (h : ACode m) : decode6502 m 0x866 = some (.rts, 1) := (h.decode (by decide) (by decide) (by decide)).trans rfl
theorem ACode.at_867 {m} (h : ACode m) : decode6502 m 0x867 = some (.inc 0x41, 2) := (h.decode (by decide) (by decide) (by decide)).trans rfl
theorem ACode.at_869 {m} (h : ACode m) : decode6502 m 0x869 = some (.asl 0x40, 2) := (h.decode (by decide) (by decide) (by decide)).trans rfl
theorem ACode.at_86b {m} (h : ACode m) : decode6502 m 0x86b = some (.jsr 0x86f, 3) := (h.decode (by decide) (by decide) (by decide)).trans rfl
theorem ACode.at_86e {m} (h : ACode m) : decode6502 m 0x86e = some (.clc, 1) := (h.decode (by decide) (by decide) (by decide)).trans rfl
theorem ACode.at_86f {m} (h : ACode m) : decode6502 m 0x86f = some (.jsr 0x874, 3) := (h.decode (by decide) (by decide) (by decide)).trans rfl
theorem ACode.at_872 {m} (h : ACode m) : decode6502 m 0x872 = some (.inc 0x40, 2) := (h.decode (by decide) (by decide) (by decide)).trans rfl
theorem ACode.at_874 {m} (h : ACode m) : decode6502 m 0x874 = some (.ld .a (.abs 0x40), 2) := (h.decode (by decide) (by decide) (by decide)).trans rfl
theorem ACode.at_876 {m} (h : ACode m) : decode6502 m 0x876 = some (.and (.imm 0x3), 2) := (h.decode (by decide) (by decide) (by decide)).trans rfl
theorem ACode.at_878 {m} (h : ACode m) : decode6502 m 0x878 = some (.rol, 1) := (h.decode (by decide) (by decide) (by decide)).trans rfl
theorem ACode.at_879 {m} (h : ACode m) : decode6502 m 0x879 = some (.or (.abs 0x2b), 2) := (h.decode (by decide) (by decide) (by decide)).trans rfl
theorem ACode.at_87b {m} (h : ACode m) : decode6502 m 0x87b = some (.tay, 1) := (h.decode (by decide) (by decide) (by decide)).trans rfl
theorem ACode.at_87c {m} (h : ACode m) : decode6502 m 0x87c = some (.ld .a (.absY 0xc080), 3) := (h.decode (by decide) (by decide) (by decide)).trans rfl
theorem ACode.at_87f {m} (h : ACode m) : decode6502 m 0x87f = some (.ld .a (.imm 0x30), 2) := (h.decode (by decide) (by decide) (by decide)).trans rfl
theorem ACode.at_881 {m} (h : ACode m) : decode6502 m 0x881 = some (.jmp 0xfca8, 3) := (h.decode (by decide) (by decide) (by decide)).trans rfl
theorem ACode.at_853 {m} (h : ACode m) : decode6502 m 0x853 = some (.ld .y (.imm 0x1), 2) := (h.decode (by decide) (by decide) (by decide)).trans rfl

/-- do one instruction and tidy up -/
local macro "ins " t:term : tactic => `(tactic| (
  refine aruns1 $t (by simp) ?_
  simp only [Cpu.exec, Cpu.setReg, Cpu.value, Cpu.addr, Cpu.reg, Cpu.flag, Cpu.modify, Apple.head, Nat.reduceAdd, Nat.reduceMod]))

local macro "sw " t:term "," k:term : tactic => `(tactic| (
  refine aruns_sw $k $t rfl (by simp) ?_
  simp only [flipSwitch, Cpu.exec, Cpu.addr, Cpu.reg, Nat.reduceAdd, Nat.reduceMod, Nat.reduceDiv]))

local macro "br " t:term "," h:term : tactic => `(tactic| (
  refine aruns_br $t (by simp) $h ?_
  simp only))
local macro "nobr " t:term "," h:term : tactic => `(tactic| (
  refine aruns_no_br $t (by simp) $h ?_
  simp only [Nat.reduceAdd, Nat.reduceMod]))

/-- the state inside a routine -/
theorem acall_state {A : Apple} {c : Cpu} {h t : Nat} (hd : decode6502 c.mem c.pc = some (.jsr t, 3)) (hpc : c.pc < 0x1000) (hs : 2 ≤ c.s.toNat) {P : Cpu → Nat → Prop}
    (hn : ∀ d : Cpu, d.pc = t → d.s.toNat + 2 = c.s.toNat → d.s + 2 = c.s → d.a = c.a → d.x = c.x → d.y = c.y → d.c = c.c → d.ret.pc = c.pc + 3 →
      (∀ p, ¬ (0x100 ≤ p ∧ p ≤ 0x100 + c.s.toNat) → d.mem p = c.mem p) → ∃ e h', A.Runs (d, h) (e, h') ∧ P e h') : ∃ e h', A.Runs (c, h) (e, h') ∧ P e h' := by
  refine aruns1 hd hpc ?_
  rw [exec_jsr _ _ (by show 1 ≤ c.s.toNat; omega)]
  have hslt := c.s.toNat_lt
  have hs2 : (c.s - 1 - 1).toNat = c.s.toNat - 2 := by rw [u8_sub1 (by rw [u8_sub1 (by omega)]; omega), u8_sub1 (by omega)]; omega
  have hp1 : (c.s - 1 - 1 + 1).toNat = c.s.toNat - 1 := by rw [u8_add 1 (by rw [hs2]; show _ + 1 < 256; omega), hs2]; show _ + 1 = _; omega
  have hp2 : (c.s - 1 - 1 + 2).toNat = c.s.toNat := by rw [u8_add 2 (by rw [hs2]; show _ + 2 < 256; omega), hs2]; show _ + 2 = _; omega
  refine hn _ rfl ?_ (UInt8.toNat_inj.mp hp2) rfl rfl rfl rfl ?_ ?_
  · show (c.s - 1 - 1).toNat + 2 = _; omega
  · simp only [Cpu.ret, hp1, hp2]
    rw [poke_same, poke_ne _ _ (by omega), poke_same, word_ofNat (by omega)]
    omega
  · intro p hp
    simp only
    rw [poke_ne _ _ (by omega), poke_ne _ _ (by omega)]

theorem aruns_wait {A : Apple} {c : Cpu} {h : Nat} {P : Cpu → Nat → Prop} (hp : c.pc = 0xfca8)
    (hn : ∃ e h', A.Runs (A.wait c, h) (e, h') ∧ P e h') : ∃ e h', A.Runs (c, h) (e, h') ∧ P e h' := by
  obtain ⟨e, h', h1, h2⟩ := hn
  refine ⟨e, h', .step ?_ h1, h2⟩
  unfold Apple.step
  simp only
  rw [if_neg (by omega), if_pos hp]

theorem aruns_shift {A : Apple} {c : Cpu} {h : Nat} {P : Cpu → Nat → Prop} (hp : c.pc = 0xf87b)
    (hn : ∃ e h', A.Runs (A.shift c, h) (e, h') ∧ P e h') : ∃ e h', A.Runs (c, h) (e, h') ∧ P e h' := by
  obtain ⟨e, h', h1, h2⟩ := hn
  refine ⟨e, h', .step ?_ h1, h2⟩
  unfold Apple.step
  simp only
  rw [if_pos hp]

theorem aruns_read {A : Apple} {c d : Cpu} {h k : Nat} {P : Cpu → Nat → Prop} (hp : c.pc = 0xc05c + 256 * A.slot) (hr : A.read c h = some (d, k))
    (hn : ∃ e h', A.Runs (d, k) (e, h') ∧ P e h') : ∃ e h', A.Runs (c, h) (e, h') ∧ P e h' := by
  obtain ⟨e, h', h1, h2⟩ := hn
  refine ⟨e, h', .step ?_ h1, h2⟩
  unfold Apple.step
  simp only
  rw [if_neg (by omega), if_neg (by omega), if_pos hp, hr]

/-- the switch of the controller for a phase -/
theorem switch_bits (v b : UInt8) {slot : Nat} (hs : slot < 8) (hb : b.toNat = 16 * slot) (cf : Bool) :
    ((v &&& 3) + (v &&& 3) + (if cf then 1 else 0) ||| b).toNat = 16 * slot + (2 * (v.toNat % 4) + (if cf then 1 else 0)) := by
  have h3 : v &&& 3 = UInt8.ofNat (v.toNat % 4) := by
    apply UInt8.toNat_inj.mp
    rw [UInt8.toNat_and, toNat_ofNat]
    show v.toNat &&& (2 ^ 2 - 1) = _
    rw [Nat.and_two_pow_sub_one_eq_mod]
    omega
  have hbb : b = UInt8.ofNat (16 * slot) := by
    apply UInt8.toNat_inj.mp
    rw [toNat_ofNat, hb]; omega
  rw [h3, hbb]
  have key : ∀ (r : Fin 4) (s : Fin 8) (cf : Bool), (UInt8.ofNat r.val + UInt8.ofNat r.val + (if cf then 1 else 0) ||| UInt8.ofNat (16 * s.val)).toNat =
    16 * s.val + (2 * r.val + (if cf then 1 else 0)) := by decide +kernel
  exact key ⟨v.toNat % 4, Nat.mod_lt _ (by omega)⟩ ⟨slot, hs⟩ cf

/-- switching one phase: the routine at 0x874 -/
theorem phase_block {A : Apple} (hA : A.slot < 8) {c : Cpu} {h : Nat} (hc : ACode c.mem) (hpc : c.pc = 0x874) (hb : (c.mem 0x2b).toNat = 16 * A.slot) (hs : c.s.toNat ≤ 0xfd) :
    ∃ e h', A.Runs (c, h) (e, h') ∧ h' = stepHead h (2 * ((c.mem 0x40).toNat % 4) + (if c.c then 1 else 0)) ∧ e.pc = c.ret.pc ∧ e.s = c.s + 2 ∧ e.a = 0 ∧ e.c = true ∧ e.x = c.x ∧
      ∀ p, p ≠ 0x100 + c.s.toNat → e.mem p = c.mem p := by
  obtain ⟨a, x, y, s, n, z, cf, pc, m⟩ := c
  simp only at hc hpc hb hs ⊢
  subst hpc
  ins hc.at_874
  ins hc.at_876
  ins hc.at_878
  ins hc.at_879
  ins hc.at_87b
  refine aruns1 hc.at_87c (by simp) ?_
  simp only [Cpu.exec, Cpu.setReg, Cpu.value, Cpu.addr, Apple.head, Nat.reduceAdd, Nat.reduceMod]
  rw [switch_bits (m 0x40) (m 0x2b) hA hb cf]
  generalize hk : 2 * ((m 0x40).toNat % 4) + (if cf = true then 1 else 0) = k
  have hk8 : k < 8 := by rw [← hk]; split <;> omega
  have ht : A.touch h ((0xc080 + (16 * A.slot + k)) % 0x10000) = stepHead h k := by
    unfold Apple.touch
    rw [Nat.mod_eq_of_lt (by omega), if_pos (by omega), show 0xc080 + (16 * A.slot + k) - (0xc080 + 16 * A.slot) = k by omega]
  rw [ht]
  ins hc.at_87f
  ins hc.at_881
  refine aruns_wait rfl ?_
  refine ⟨_, _, .refl _, rfl, ?_, rfl, rfl, rfl, rfl, ?_⟩
  · refine ret_pc (c := ⟨a, x, y, s, n, z, cf, 0x874, m⟩) (d := ⟨_, _, _, s, _, _, _, _, _⟩) rfl (fun k h1 h2 => poke_ne _ _ ?_) hs
    simp only at h1 ⊢
    omega
  · intro p hp
    exact poke_ne _ _ hp

/-- a half-track: the routine at 0x86f -/
theorem step_block {A : Apple} (hA : A.slot < 8) {c : Cpu} {h : Nat} (hc : ACode c.mem) (hpc : c.pc = 0x86f) (hb : (c.mem 0x2b).toNat = 16 * A.slot) (hs : c.s.toNat ≤ 0xfd)
    (hs2 : 2 ≤ c.s.toNat) {v : Nat} (hv : (c.mem 0x40).toNat = v) (hv2 : v < 255) :
    ∃ e h', A.Runs (c, h) (e, h') ∧ h' = stepHead (stepHead h (2 * (v % 4) + (if c.c then 1 else 0))) (2 * ((v + 1) % 4) + 1) ∧ e.pc = c.ret.pc ∧ e.s = c.s + 2 ∧ e.a = 0 ∧
      e.c = true ∧ e.x = c.x ∧ (e.mem 0x40).toNat = v + 1 ∧ ∀ p, p ≠ 0x40 → ¬ (0x100 ≤ p ∧ p ≤ 0x100 + c.s.toNat) → e.mem p = c.mem p := by
  refine acall_state (by rw [hpc]; exact hc.at_86f) (by omega) hs2 ?_
  intro d d1 d2 d3 d4 d5 d6 d7 d8 d9
  have hslt := c.s.toNat_lt
  have hcd : ACode d.mem := hc.keep fun p h1 h2 h3 h4 => d9 p (by omega)
  obtain ⟨c1, h1, r1, e1, e2, e3, e4, e5, e6, e7⟩ := phase_block hA (h := h) hcd d1 (by rw [d9 _ (by omega)]; exact hb) (by omega)
  rw [d9 _ (by omega), d7, hv] at e1
  have hc1 : ACode c1.mem := hcd.keep fun p g1 g2 g3 g4 => e7 p (by omega)
  have hp1 : c1.pc = 0x872 := by rw [e2, d8, hpc]
  have hm1 : ∀ p, ¬ (0x100 ≤ p ∧ p ≤ 0x100 + c.s.toNat) → c1.mem p = c.mem p := fun p hp => (e7 p (by omega)).trans (d9 p hp)
  have hv1 : (c1.mem 0x40).toNat = v := by rw [hm1 _ (by omega)]; exact hv
  have hs1 : c1.s = c.s := by rw [e3, d3]
  have hx1 : c1.x = c.x := by rw [e6, d5]
  have key : ∃ e h', A.Runs (c1, h1) (e, h') ∧ (h' = h1 ∧ e.pc = 0x874 ∧ e.s = c.s ∧ e.c = true ∧ e.x = c.x ∧ (e.mem 0x40).toNat = v + 1 ∧
      ∀ p, p ≠ 0x40 → ¬ (0x100 ≤ p ∧ p ≤ 0x100 + c.s.toNat) → e.mem p = c.mem p) := by
    clear e2 e3 e4 e6 e7 r1 e1
    obtain ⟨a, x, y, s, n, z, cf, pc, m⟩ := c1
    simp only at hc1 hp1 hv1 hs1 hx1 e5 hm1
    subst hp1
    ins hc1.at_872
    refine ⟨_, _, .refl _, rfl, rfl, hs1, e5, hx1, ?_, fun p g1 g2 => (poke_ne _ _ g1).trans (hm1 p g2)⟩
    show (poke m 0x40 (m 0x40 + 1) 0x40).toNat = v + 1
    rw [poke_same, u8_add 1 (by rw [hv1]; show v + 1 < 256; omega), hv1]; rfl
  have hstk : ∀ k, 0x100 + c.s.toNat < k → k ≤ 0x1ff → c1.mem k = c.mem k := fun k g1 g2 => hm1 k (by omega)
  obtain ⟨c2, h2, r2, f0, f1, f2, f3, f4, f5, f6⟩ := key
  have hc2 : ACode c2.mem := hc.keep fun p g1 g2 g3 g4 => f6 p (by omega) (by omega)
  obtain ⟨e, h', r3, g1, g2, g3, g4, g5, g6, g7⟩ := phase_block hA (h := h2) hc2 f1 (by rw [f6 _ (by omega) (by omega)]; exact hb) (by rw [f2]; exact hs)
  refine ⟨e, h', r1.trans (r2.trans r3), ?_, ?_, ?_, g4, g5, g6.trans f4, ?_, fun p k1 k2 => ?_⟩
  · rw [g1, f0, e1, f5, f3]; rfl
  · rw [g2]
    exact ret_pc f2 (fun k k1 k2 => f6 k (by omega) (by omega)) hs
  · rw [g3, f2]
  · rw [g7 _ (by rw [f2]; omega)]; exact f5
  · rw [g7 p (by rw [f2]; omega)]; exact f6 p k1 k2

theorem stepHead_off (h k : Nat) : stepHead h (2 * k + 0) = h := by unfold stepHead; rw [if_pos (by omega)]
theorem stepHead_on (h : Nat) : stepHead h (2 * ((h + 1) % 4) + 1) = h + 1 := by
  unfold stepHead
  rw [if_neg (by omega), if_pos (by omega)]

/-- **the next track**: the routine at 0x867 -/
theorem seek_block {A : Apple} (hA : A.slot < 8) {c : Cpu} {t : Nat} (hc : ACode c.mem) (hpc : c.pc = 0x867) (hb : (c.mem 0x2b).toNat = 16 * A.slot) (hs : c.s.toNat ≤ 0xfd)
    (hs2 : 4 ≤ c.s.toNat) (ht : t < 100) (h40 : (c.mem 0x40).toNat = t) (h41 : (c.mem 0x41).toNat = t) :
    ∃ e h', A.Runs (c, 2 * t) (e, h') ∧ h' = 2 * (t + 1) ∧ e.pc = c.ret.pc ∧ e.s = c.s + 2 ∧ e.a = 0 ∧ e.x = c.x ∧ (e.mem 0x41).toNat = t + 1 ∧
      ∀ p, p ≠ 0x40 → p ≠ 0x41 → ¬ (0x100 ≤ p ∧ p ≤ 0x100 + c.s.toNat) → e.mem p = c.mem p := by
  have hslt := c.s.toNat_lt
  have key : ∃ e h', A.Runs (c, 2 * t) (e, h') ∧ (h' = 2 * t ∧ e.pc = 0x86b ∧ e.s = c.s ∧ e.c = false ∧ e.x = c.x ∧ (e.mem 0x40).toNat = 2 * t ∧ (e.mem 0x41).toNat = t + 1 ∧
      ∀ p, p ≠ 0x40 → p ≠ 0x41 → e.mem p = c.mem p) := by
    obtain ⟨a, x, y, s, n, z, cf, pc, m⟩ := c
    simp only at hc hpc hb hs h40 h41 ⊢
    subst hpc
    ins hc.at_867
    have hc1 : ACode (poke m 0x41 (m 0x41 + 1)) := hc.poke (by omega)
    ins hc1.at_869
    have e40 : poke m 0x41 (m 0x41 + 1) 0x40 = m 0x40 := poke_ne _ _ (by omega)
    rw [e40]
    refine ⟨_, _, .refl _, rfl, rfl, rfl, ?_, rfl, ?_, ?_, fun p g1 g2 => (poke_ne _ _ g1).trans (poke_ne _ _ g2)⟩
    · show decide (128 ≤ (m 0x40).toNat) = false
      rw [decide_eq_false (by omega)]
    · simp only
      rw [poke_same, u8_add _ (by omega)]; omega
    · simp only
      rw [poke_ne _ _ (by omega), poke_same, u8_add 1 (by show _ + 1 < 256; omega), h41]; rfl
  obtain ⟨c1, h1, r1, a0, a1, a2, a3, a4, a5, a6, a7⟩ := key
  subst a0
  have hc1 : ACode c1.mem := hc.keep fun p g1 g2 g3 g4 => a7 p (by omega) (by omega)
  have key2 : ∃ e h', A.Runs (c1, 2 * t) (e, h') ∧ (h' = 2 * t + 1 ∧ e.pc = 0x86e ∧ e.s = c.s ∧ e.x = c.x ∧ (e.mem 0x40).toNat = 2 * t + 1 ∧ (e.mem 0x41).toNat = t + 1 ∧
      ∀ p, p ≠ 0x40 → p ≠ 0x41 → ¬ (0x100 ≤ p ∧ p ≤ 0x100 + c.s.toNat) → e.mem p = c.mem p) := by
    refine acall_state (by rw [a1]; exact hc1.at_86b) (by omega) (by rw [a2]; omega) ?_
    intro d d1 d2 d3 d4 d5 d6 d7 d8 d9
    rw [a2] at d2 d9
    have hcd : ACode d.mem := hc1.keep fun p k1 k2 k3 k4 => d9 p (by omega)
    obtain ⟨e, h', r, e1, e2, e3, e4, e5, e6, e7, e8⟩ := step_block hA (h := 2 * t) hcd d1 (by rw [d9 _ (by omega), a7 _ (by omega) (by omega)]; exact hb) (by omega) (by omega)
      (v := 2 * t) (by rw [d9 _ (by omega)]; exact a5) (by omega)
    refine ⟨e, h', r, ?_, ?_, ?_, ?_, e7, ?_, fun p k1 k2 k3 => ?_⟩
    · rw [e1, d7, a3, if_neg (by simp), stepHead_off, stepHead_on]
    · rw [e2, d8, a1]
    · rw [e3, d3, a2]
    · rw [e6, d5, a4]
    · rw [e8 _ (by omega) (by omega), d9 _ (by omega)]; exact a6
    · rw [e8 p k1 (by omega), d9 p k3, a7 p k1 k2]
  obtain ⟨c2, h2, r2, b0, b1, b2, b3, b4, b5, b6⟩ := key2
  subst b0
  have hc2 : ACode c2.mem := hc.keep fun p g1 g2 g3 g4 => b6 p (by omega) (by omega) (by omega)
  have key3 : ∃ e h', A.Runs (c2, 2 * t + 1) (e, h') ∧ (h' = 2 * t + 1 ∧ e.pc = 0x86f ∧ e.s = c2.s ∧ e.c = false ∧ e.x = c2.x ∧ e.mem = c2.mem) := by
    obtain ⟨a, x, y, s, n, z, cf, pc, m⟩ := c2
    simp only at hc2 b1 ⊢
    subst b1
    ins hc2.at_86e
    exact ⟨_, _, .refl _, rfl, rfl, rfl, rfl, rfl, rfl⟩
  obtain ⟨c3, h3, r3, f0, f1, f2, f3, f4, f5⟩ := key3
  subst f0
  obtain ⟨e, h', r4, g1, g2, g3, g4, g5, g6, g7, g8⟩ := step_block hA (h := 2 * t + 1) (by rw [f5]; exact hc2) f1 (by rw [f5, b6 _ (by omega) (by omega) (by omega)]; exact hb)
    (by rw [f2, b2]; exact hs) (by rw [f2, b2]; omega) (v := 2 * t + 1) (by rw [f5]; exact b4) (by omega)
  rw [f2, b2] at g8
  refine ⟨e, h', r1.trans (r2.trans (r3.trans r4)), ?_, ?_, ?_, g4, ?_, ?_, fun p k1 k2 k3 => ?_⟩
  · rw [g1, f3, if_neg (by simp), stepHead_off, stepHead_on]; omega
  · rw [g2]
    refine ret_pc (f2.trans b2) (fun k k1 k2 => ?_) hs
    rw [f5]; exact b6 k (by omega) (by omega) (by omega)
  · rw [g3, f2, b2]
  · rw [g6, f4, b3]
  · rw [g8 _ (by omega) (by omega), f5]; exact b5
  · rw [g8 p k1 k3, f5]; exact b6 p k1 k2 k3

theorem phys_next (q : Nat) : (loaderPhysical (q % 16) + 2 < 16 ∧ loaderPhysical ((q + 1) % 16) = loaderPhysical (q % 16) + 2 ∧ (q + 1) / 16 = q / 16) ∨
    (loaderPhysical (q % 16) + 2 = 16 ∧ loaderPhysical ((q + 1) % 16) = 1 ∧ (q + 1) / 16 = q / 16) ∨
    (loaderPhysical (q % 16) + 2 = 17 ∧ loaderPhysical ((q + 1) % 16) = 0 ∧ (q + 1) / 16 = q / 16 + 1) := by
  unfold loaderPhysical
  split <;> split <;> omega

theorem phys_lt (q : Nat) : loaderPhysical (q % 16) < 16 := by
  unfold loaderPhysical
  split <;> omega

theorem isZero_true {v : UInt8} : isZero v = true ↔ v = 0 := decide_eq_true_iff
theorem isZero_sub {a b : UInt8} : isZero (a - b) = decide (a = b) := by
  unfold isZero
  refine decide_eq_decide.mpr ⟨fun h => ?_, fun h => by rw [h]; simp⟩
  have : a - b + b = 0 + b := by rw [h]
  simpa using this

/-- **the next sector**: from 0x847 to 0x855 -/
theorem turn_block {A : Apple} (hA : A.slot < 8) {c : Cpu} {q : Nat} (hq : q < 1600) (hc : ACode c.mem) (hpc : c.pc = 0x847) (hb : (c.mem 0x2b).toNat = 16 * A.slot)
    (hs2 : 6 ≤ c.s.toNat) (hy : c.y.toNat = loaderPhysical (q % 16) + 1) (h40 : (c.mem 0x40).toNat = q / 16) (h41 : (c.mem 0x41).toNat = q / 16) :
    ∃ e h', A.Runs (c, 2 * (q / 16)) (e, h') ∧ h' = 2 * ((q + 1) / 16) ∧ e.pc = 0x855 ∧ e.s = c.s ∧ e.x = c.x ∧ e.y.toNat = loaderPhysical ((q + 1) % 16) ∧
      (e.mem 0x41).toNat = (q + 1) / 16 ∧ ∀ p, p ≠ 0x40 → p ≠ 0x41 → ¬ (0x100 ≤ p ∧ p ≤ 0x100 + c.s.toNat) → e.mem p = c.mem p := by
  have hlt := phys_lt q
  have hslt := c.s.toNat_lt
  -- to the comparison
  have key : ∃ e h', A.Runs (c, 2 * (q / 16)) (e, h') ∧ (h' = 2 * (q / 16) ∧ e.s = c.s ∧ e.x = c.x ∧ e.mem = c.mem ∧ e.y.toNat = loaderPhysical (q % 16) + 2 ∧
      e.pc = (if loaderPhysical (q % 16) + 2 < 16 then 0x855 else if loaderPhysical (q % 16) + 2 = 16 then 0x853 else 0x84e)) := by
    obtain ⟨a, x, y, s, n, z, cf, pc, m⟩ := c
    simp only at hc hpc hy ⊢
    subst hpc
    have hy2 : (y + 1).toNat = loaderPhysical (q % 16) + 2 := by rw [u8_add 1 (by show _ + 1 < 256; omega), hy]; rfl
    ins hc.at_847
    ins hc.at_848
    rw [isZero_sub]
    by_cases h1 : loaderPhysical (q % 16) + 2 < 16
    · br hc.at_84a, (decide_eq_false (by rw [hy2]; show ¬ 16 ≤ _; omega))
      refine ⟨_, _, .refl _, rfl, rfl, rfl, rfl, hy2, ?_⟩
      rw [if_pos h1]
    · nobr hc.at_84a, (decide_eq_true (by rw [hy2]; show 16 ≤ _; omega))
      by_cases h2 : loaderPhysical (q % 16) + 2 = 16
      · br hc.at_84c, (decide_eq_true (UInt8.toNat_inj.mp (by rw [hy2, h2]; rfl)))
        refine ⟨_, _, .refl _, rfl, rfl, rfl, rfl, hy2, ?_⟩
        rw [if_neg h1, if_pos h2]
      · nobr hc.at_84c, (decide_eq_false (fun h => h2 (by rw [← hy2, h]; rfl)))
        refine ⟨_, _, .refl _, rfl, rfl, rfl, rfl, hy2, ?_⟩
        rw [if_neg h1, if_neg h2]
  obtain ⟨c1, h1, r1, a0, a1, a2, a3, a4, a5⟩ := key
  subst a0
  rcases phys_next q with ⟨n1, n2, n3⟩ | ⟨n1, n2, n3⟩ | ⟨n1, n2, n3⟩
  · rw [if_pos n1] at a5
    exact ⟨c1, _, r1, by rw [n3], a5, a1, a2, by rw [a4, n2], by rw [a3, n3]; exact h41, fun p _ _ _ => by rw [a3]⟩
  · rw [if_neg (by omega), if_pos n1] at a5
    have key2 : ∃ e h', A.Runs (c1, 2 * (q / 16)) (e, h') ∧ (h' = 2 * (q / 16) ∧ e.pc = 0x855 ∧ e.s = c1.s ∧ e.x = c1.x ∧ e.mem = c1.mem ∧ e.y = 1) := by
      rw [← a3] at hc
      obtain ⟨a, x, y, s, n, z, cf, pc, m⟩ := c1
      simp only at hc a5 ⊢
      subst a5
      ins hc.at_853
      exact ⟨_, _, .refl _, rfl, rfl, rfl, rfl, rfl, rfl⟩
    obtain ⟨c2, h2, r2, b0, b1, b2, b3, b4, b5⟩ := key2
    subst b0
    exact ⟨c2, _, r1.trans r2, by rw [n3], b1, b2.trans a1, b3.trans a2, by rw [b5, n2]; rfl, by rw [b4, a3, n3]; exact h41, fun p _ _ _ => by rw [b4, a3]⟩
  · rw [if_neg (by omega), if_neg (by omega)] at a5
    have hc1 : ACode c1.mem := by rw [a3]; exact hc
    have key2 : ∃ e h', A.Runs (c1, 2 * (q / 16)) (e, h') ∧ (h' = 2 * (q / 16 + 1) ∧ e.pc = 0x851 ∧ e.s = c.s ∧ e.a = 0 ∧ e.x = c.x ∧ (e.mem 0x41).toNat = q / 16 + 1 ∧
        ∀ p, p ≠ 0x40 → p ≠ 0x41 → ¬ (0x100 ≤ p ∧ p ≤ 0x100 + c.s.toNat) → e.mem p = c.mem p) := by
      refine acall_state (by rw [a5]; exact hc1.at_84e) (by omega) (by rw [a1]; omega) ?_
      intro d d1 d2 d3 d4 d5 d6 d7 d8 d9
      rw [a1, a3] at d9
      rw [a1] at d2
      obtain ⟨e, h', r, e1, e2, e3, e4, e5, e6, e7⟩ := seek_block hA (hc.keep fun p k1 k2 k3 k4 => d9 p (by omega)) d1 (by rw [d9 _ (by omega)]; exact hb) (by omega) (by omega)
        (t := q / 16) (by omega) (by rw [d9 _ (by omega)]; exact h40) (by rw [d9 _ (by omega)]; exact h41)
      refine ⟨e, h', r, e1, ?_, ?_, e4, ?_, e6, fun p k1 k2 k3 => ?_⟩
      · rw [e2, d8, a5]
      · rw [e3, d3, a1]
      · rw [e5, d5, a2]
      · rw [e7 p k1 k2 (by omega), d9 p k3]
    obtain ⟨c2, h2, r2, b0, b1, b2, b3, b4, b5, b6⟩ := key2
    subst b0
    have hc2 : ACode c2.mem := hc.keep fun p k1 k2 k3 k4 => b6 p (by omega) (by omega) (by omega)
    have key3 : ∃ e h', A.Runs (c2, 2 * (q / 16 + 1)) (e, h') ∧ (h' = 2 * (q / 16 + 1) ∧ e.pc = 0x855 ∧ e.s = c2.s ∧ e.x = c2.x ∧ e.mem = c2.mem ∧ e.y = 0) := by
      obtain ⟨a, x, y, s, n, z, cf, pc, m⟩ := c2
      simp only at hc2 b1 b3 ⊢
      subst b1
      subst b3
      ins hc2.at_851
      ins hc2.at_852
      exact ⟨_, _, .refl _, rfl, rfl, rfl, rfl, rfl, rfl⟩
    obtain ⟨c3, h3, r3, f0, f1, f2, f3, f4, f5⟩ := key3
    subst f0
    exact ⟨c3, _, r1.trans (r2.trans r3), by rw [n3], f1, f2.trans b2, f3.trans b4, by rw [f5, n2]; rfl, by rw [f4, n3]; exact b5, fun p k1 k2 k3 => by rw [f4]; exact b6 p k1 k2 k3⟩

theorem slot_bits (x : UInt8) {slot : Nat} (hs : slot < 8) (hx : x.toNat = 16 * slot) : ((x >>> 4) ||| 0xc0).toNat = 0xc0 + slot := by
  have hxx : x = UInt8.ofNat (16 * slot) := by
    apply UInt8.toNat_inj.mp
    rw [toNat_ofNat, hx]; omega
  rw [hxx]
  have key : ∀ s : Fin 8, ((UInt8.ofNat (16 * s.val) >>> 4) ||| 0xc0).toNat = 0xc0 + s.val := by decide +kernel
  exact key ⟨slot, hs⟩

theorem aruns_then {A : Apple} {c d : Cpu × Nat} {P : Cpu → Nat → Prop} (r : A.Runs c d) (h : ∃ e h', A.Runs d (e, h') ∧ P e h') : ∃ e h', A.Runs c (e, h') ∧ P e h' := by
  obtain ⟨e, h', r', w⟩ := h
  exact ⟨e, h', r.trans r', w⟩

/-- **reading a sector**: from 0x855 through the ROM back to 0x801 -/
theorem read_block {A : Apple} (hA : A.slot < 8) {c : Cpu} {t : Nat} (hc : ACode c.mem) (hpc : c.pc = 0x855) (hx : c.x.toNat = 16 * A.slot)
    (hb : (c.mem 0x2b).toNat = 16 * A.slot) (hs2 : 6 ≤ c.s.toNat) (h41 : (c.mem 0x41).toNat = t) {d : Bytes} (hd : A.disk t c.y.toNat = some d) (hy : c.y.toNat < 16)
    (hl : (c.mem 0x27).toNat ≠ 0 ∧ (c.mem 0x27).toNat ≠ 1 ∧ (c.mem 0x27).toNat ≠ 3 ∧ (c.mem 0x27).toNat < 0xc0)
    (h1 : (if (c.mem 0x27).toNat = 8 then d.getD 0 0 else c.mem 0x800).toNat ≤ c.y.toNat + 1) :
    ∃ e h', A.Runs (c, 2 * t) (e, h') ∧ h' = 2 * t ∧ e.pc = 0x801 ∧ e.s = c.s ∧ e.a = c.y + 1 ∧ e.x.toNat = 16 * A.slot ∧
      (e.mem 0x27).toNat = (c.mem 0x27).toNat + 1 ∧ (e.mem 0x40).toNat = t ∧ (e.mem 0x41).toNat = t ∧ (e.mem 0x2b).toNat = 16 * A.slot ∧ e.mem 0xfe = c.mem 0xfe ∧
      (∀ p, 0x800 ≤ p → p < 0x900 → e.mem p = if (c.mem 0x27).toNat = 8 then d.getD (p % 256) 0 else c.mem p) ∧
      (∀ p, loadable (p / 256) = true → e.mem p = if p / 256 = (c.mem 0x27).toNat then d.getD (p % 256) 0 else c.mem p) ∧
      ∀ p, 0x10000 ≤ p → e.mem p = c.mem p := by
  have hslt := c.s.toNat_lt
  -- up to the call of the shift routine
  have key : ∃ e h', A.Runs (c, 2 * t) (e, h') ∧ (h' = 2 * t ∧ e.pc = 0x85d ∧ e.s = c.s ∧ e.x = c.x ∧ e.a = c.x ∧ e.mem = poke c.mem 0x3d c.y) := by
    obtain ⟨a, x, y, s, n, z, cf, pc, m⟩ := c
    simp only at hc hpc hl ⊢
    subst hpc
    ins hc.at_855
    have hc1 : ACode (poke m 0x3d y) := hc.poke (by omega)
    ins hc1.at_857
    ins hc1.at_858
    have e27 : poke m 0x3d y 0x27 = m 0x27 := poke_ne _ _ (by omega)
    rw [e27]
    nobr hc1.at_85a, (decide_eq_false (fun h => hl.1 (by rw [h]; rfl)))
    ins hc1.at_85c
    exact ⟨_, _, .refl _, rfl, rfl, rfl, rfl, rfl, rfl⟩
  obtain ⟨c1, h1', r1, a0, a1, a2, a3, a4, a5⟩ := key
  subst a0
  have hc1 : ACode c1.mem := by rw [a5]; exact hc.poke (by omega)
  have key2 : ∃ e h', A.Runs (c1, 2 * t) (e, h') ∧ (h' = 2 * t ∧ e.pc = 0x860 ∧ e.s = c.s ∧ e.x = c.x ∧ e.a = c.x >>> 4 ∧
      ∀ p, ¬ (0x100 ≤ p ∧ p ≤ 0x100 + c.s.toNat) → e.mem p = c1.mem p) := by
    refine acall_state (by rw [a1]; exact hc1.at_85d) (by omega) (by rw [a2]; omega) ?_
    intro d' d1 d2 d3 d4 d5 d6 d7 d8 d9
    refine aruns_shift d1 ?_
    refine ⟨_, _, .refl _, rfl, ?_, ?_, ?_, ?_, ?_⟩
    · show d'.ret.pc = _
      rw [d8, a1]
    · show d'.s + 2 = _
      rw [d3, a2]
    · show d'.x = _
      rw [d5, a3]
    · show d'.a >>> 4 = _
      rw [d4, a4]
    · intro p hp'
      show d'.mem p = _
      rw [a2] at d9
      exact d9 p hp'
  obtain ⟨c2, h2', r2, b0, b1, b2, b3, b4, b5⟩ := key2
  subst b0
  have hm2 : ∀ p, p ≠ 0x3d → ¬ (0x100 ≤ p ∧ p ≤ 0x100 + c.s.toNat) → c2.mem p = c.mem p := by
    intro p k1 k2
    rw [b5 p k2, a5, poke_ne _ _ k1]
  have h3d : c2.mem 0x3d = c.y := by rw [b5 _ (by omega), a5, poke_same]
  have hc2 : ACode c2.mem := hc.keep fun p k1 k2 k3 k4 => hm2 p (by omega) (by omega)
  -- the jump into the ROM
  have key3 : ∃ e h', A.Runs (c2, 2 * t) (e, h') ∧ (h' = 2 * t ∧ e.pc = 0xc05c + 256 * A.slot ∧ e.s = c.s ∧ e.mem 0x3d = c.y ∧
      ∀ p, p ≠ 0x3d → ¬ (0x100 ≤ p ∧ p ≤ 0x100 + c.s.toNat) → e.mem p = c.mem p) := by
    have hor : ((c2.a) ||| 0xc0).toNat = 0xc0 + A.slot := by rw [b4]; exact slot_bits _ hA hx
    rw [← b2] at hm2 hs2 ⊢
    rw [← b2] at hslt
    obtain ⟨a, x, y, s, n, z, cf, pc, m⟩ := c2
    simp only at hc2 b1 hor hm2 h3d hs2 hslt ⊢
    subst b1
    ins hc2.at_860
    refine aruns1 hc2.at_862 (by simp) ?_
    simp only [Cpu.exec, Cpu.push, Apple.head, Nat.reduceAdd, Nat.reduceMod]
    have hc3 : ACode (poke m (0x100 + s.toNat) (a ||| 0xc0)) := hc2.poke (by omega)
    ins hc3.at_863
    refine aruns1 hc3.at_865 (by simp) ?_
    simp only [Cpu.exec, Cpu.push, Apple.head, Nat.reduceAdd, Nat.reduceMod]
    have hs1 : (s - 1).toNat = s.toNat - 1 := u8_sub1 (by omega)
    rw [hs1]
    have hc4 : ACode (poke (poke m (0x100 + s.toNat) (a ||| 0xc0)) (0x100 + (s.toNat - 1)) 0x5b) := hc3.poke (by omega)
    ins hc4.at_866
    have hs2' : (s - 1 - 1).toNat = s.toNat - 2 := by rw [u8_sub1 (by rw [hs1]; omega), hs1]; omega
    have hp1 : (s - 1 - 1 + 1).toNat = s.toNat - 1 := by rw [u8_add 1 (by rw [hs2']; show _ + 1 < 256; omega), hs2']; show _ + 1 = _; omega
    have hp2 : (s - 1 - 1 + 2).toNat = s.toNat := by rw [u8_add 2 (by rw [hs2']; show _ + 2 < 256; omega), hs2']; show _ + 2 = _; omega
    refine ⟨_, _, .refl _, rfl, ?_, UInt8.toNat_inj.mp hp2, ?_, fun p k1 k2 => ?_⟩
    · simp only [Cpu.ret, hp1, hp2]
      rw [poke_same, poke_ne _ _ (by omega), poke_same]
      unfold word
      rw [hor]
      show (0x5b + 256 * (0xc0 + A.slot) + 1) % 65536 = _
      omega
    · show poke (poke m _ _) _ _ 0x3d = _
      rw [poke_ne _ _ (by omega), poke_ne _ _ (by omega)]; exact h3d
    · show poke (poke m _ _) _ _ p = _
      rw [poke_ne _ _ (by omega), poke_ne _ _ (by omega)]; exact hm2 p k1 k2
  obtain ⟨c3, h3', r3, f0, f1, f2, f3, f4⟩ := key3
  subst f0
  have e800 : c3.mem 0x800 = c.mem 0x800 := f4 _ (by omega) (by omega)
  have e41 : (c3.mem 0x41).toNat = t := by rw [f4 _ (by omega) (by omega)]; exact h41
  have e27 : c3.mem 0x27 = c.mem 0x27 := f4 _ (by omega) (by omega)
  have e2b : (c3.mem 0x2b).toNat = 16 * A.slot := by rw [f4 _ (by omega) (by omega)]; exact hb
  have y1 : (c.y + 1).toNat = c.y.toNat + 1 := by rw [u8_add 1 (by show _ + 1 < 256; omega)]; rfl
  have p1 : (c.mem 0x27 + 1).toNat = (c.mem 0x27).toNat + 1 := by rw [u8_add 1 (by show _ + 1 < 256; omega)]; rfl
  -- the sector is read
  have hr : ∃ r, A.read c3 (2 * t) = some (r, 2 * t) ∧ r = { c3 with a := c3.mem 0x3d + 1, x := c3.mem 0x2b, y := (A.after c3).y, pc := 0x801, n := (A.after c3).n, z := (A.after c3).z, c := true, mem := fun p =>
      (if p = 0x27 then c3.mem 0x27 + 1
      else if p = 0x3d then c3.mem 0x3d + 1
      else if p = 0x40 then c3.mem 0x41
      else if p / 256 = (c3.mem 0x27).toNat then d.getD (p % 256) 0
      else if p = 0x26 ∨ p = 0x2a ∨ p = 0x3c ∨ p / 256 = 3 ∨ (0x100 ≤ p ∧ p ≤ 0x100 + c3.s.toNat) then (A.after c3).mem p
      else c3.mem p) } := by
    refine ⟨_, ?_, rfl⟩
    unfold Apple.read
    have hd' : A.disk (c3.mem 0x41).toNat (c3.mem 0x3d).toNat = some d := by rw [e41, f3]; exact hd
    rw [hd']
    simp only
    refine if_pos ⟨by rw [e41], ?_⟩
    rw [if_neg (by omega), if_neg (by omega), if_neg (by omega), e27, f3, y1]
    by_cases h8 : (c.mem 0x27).toNat = 8
    · rw [if_pos h8] at h1
      rw [if_pos (by omega)]; exact h1
    · rw [if_neg h8] at h1
      rw [if_neg (by omega), if_neg (by rw [f2]; omega), e800]; exact h1
  obtain ⟨r, hr, rfl⟩ := hr
  refine aruns_then (r1.trans (r2.trans r3)) (aruns_read f1 hr ⟨_, _, .refl _, rfl, ?_⟩)
  · simp only [e27, f2, f3]
    refine ⟨trivial, trivial, trivial, e2b, by rw [if_pos trivial]; exact p1, ?_, ?_, ?_, ?_, ?_, ?_, fun p hp => ?_⟩
    · simp only [Nat.reduceEqDiff, if_false, if_true]; exact e41
    · rw [if_neg (by omega), if_neg (by omega), if_neg (by omega), if_neg (by omega), if_neg (by omega)]; exact e41
    · rw [if_neg (by omega), if_neg (by omega), if_neg (by omega), if_neg (by omega), if_neg (by omega)]; exact e2b
    · rw [if_neg (by omega), if_neg (by omega), if_neg (by omega), if_neg (by omega), if_neg (by omega)]; exact f4 _ (by omega) (by omega)
    · intro p k1 k2
      rw [if_neg (by omega), if_neg (by omega), if_neg (by omega)]
      by_cases h8 : (c.mem 0x27).toNat = 8
      · rw [if_pos h8, if_pos (by omega)]
      · rw [if_neg h8, if_neg (by omega), if_neg (by omega)]; exact f4 _ (by omega) (by omega)
    · intro p hpl
      have hq : p / 256 ≠ 0 ∧ p / 256 ≠ 1 ∧ p / 256 ≠ 3 ∧ p / 256 ≠ 8 ∧ p / 256 < 0xc0 := by
        unfold loadable at hpl
        simp only [Bool.and_eq_true, bne_iff_ne, decide_eq_true_eq] at hpl
        omega
      rw [if_neg (by omega), if_neg (by omega), if_neg (by omega)]
      by_cases hin : p / 256 = (c.mem 0x27).toNat
      · rw [if_pos hin, if_pos hin]
      · rw [if_neg hin, if_neg hin, if_neg (by omega)]; exact f4 _ (by omega) (by omega)
    · rw [if_neg (by omega), if_neg (by omega), if_neg (by omega), if_neg (by omega), if_neg (by omega)]; exact f4 _ (by omega) (by omega)

/-- **reading the sector**: from 0x855 to 0x80b -/
theorem load_block {A : Apple} (hA : A.slot < 8) {c : Cpu} {t : Nat} (hc : ACode c.mem) (h1 : c.mem 0x800 = 1) (hpc : c.pc = 0x855) (hx : c.x.toNat = 16 * A.slot)
    (hb : (c.mem 0x2b).toNat = 16 * A.slot) (hs2 : 6 ≤ c.s.toNat) (h41 : (c.mem 0x41).toNat = t) {d : Bytes} (hd : A.disk t c.y.toNat = some d) (hy : c.y.toNat < 16)
    (hp : loadable (c.mem 0x27).toNat = true) :
    ∃ e h', A.Runs (c, 2 * t) (e, h') ∧ h' = 2 * t ∧ e.pc = 0x80b ∧ e.s = c.s ∧ e.x.toNat = 16 * A.slot ∧ e.y.toNat = c.y.toNat + 1 ∧ e.z = false ∧
      (e.mem 0x27).toNat = (c.mem 0x27).toNat + 1 ∧ (e.mem 0x40).toNat = t ∧ (e.mem 0x41).toNat = t ∧ (e.mem 0x2b).toNat = 16 * A.slot ∧ e.mem 0xfe = c.mem 0xfe ∧
      (∀ p, 0x800 ≤ p → p < 0x900 → e.mem p = c.mem p) ∧
      (∀ p, loadable (p / 256) = true → e.mem p = if p / 256 = (c.mem 0x27).toNat then d.getD (p % 256) 0 else c.mem p) ∧
      ShowsHires e.mem (c.mem 0x10002) := by
  have hl : (c.mem 0x27).toNat ≠ 0 ∧ (c.mem 0x27).toNat ≠ 1 ∧ (c.mem 0x27).toNat ≠ 3 ∧ (c.mem 0x27).toNat ≠ 8 ∧ (c.mem 0x27).toNat < 0xc0 := by
    unfold loadable at hp
    simp only [Bool.and_eq_true, bne_iff_ne, decide_eq_true_eq] at hp
    omega
  have y1 : (c.y + 1).toNat = c.y.toNat + 1 := by rw [u8_add 1 (by show _ + 1 < 256; omega)]; rfl
  obtain ⟨c4, h4', r4, g0, g1, g2, g3, g4, g5, g6, g7, g8, g9, g10', g11, g12⟩ := read_block hA hc hpc hx hb hs2 h41 hd hy ⟨hl.1, hl.2.1, hl.2.2.1, hl.2.2.2.2⟩
    (by rw [if_neg hl.2.2.2.1, h1]; show 1 ≤ _; omega)
  have g10 : ∀ p, 0x800 ≤ p → p < 0x900 → c4.mem p = c.mem p := fun p q1 q2 => by rw [g10' p q1 q2, if_neg hl.2.2.2.1]
  subst g0
  have hc4 : ACode c4.mem := hc.keep fun p k1 k2 k3 k4 => g10 p (by omega) (by omega)
  have key5 : ∃ e h', A.Runs (c4, 2 * t) (e, h') ∧ (h' = 2 * t ∧ e.pc = 0x80b ∧ e.s = c4.s ∧ e.x = c4.x ∧ e.y = c4.a ∧ e.z = isZero c4.a ∧
      (∀ p, p < 0xc000 → e.mem p = c4.mem p) ∧ ShowsHires e.mem (c4.mem 0x10002)) := by
    obtain ⟨a, x, y, s, n, z, cf, pc, m⟩ := c4
    simp only at hc4 g1 ⊢
    subst g1
    ins hc4.at_801
    sw hc4.at_802, 0
    sw ((hc4.poke (by omega)).poke (by omega)).at_805, 2
    sw ((((hc4.poke (by omega)).poke (by omega)).poke (by omega)).poke (by omega)).at_808, 7
    refine ⟨_, _, .refl _, rfl, rfl, rfl, rfl, rfl, rfl, fun p hp' => ?_, ⟨?_, ?_, ?_, ?_⟩⟩ <;> simp only
    · rw [poke_ne _ _ (by omega), poke_ne _ _ (by omega), poke_ne _ _ (by omega), poke_ne _ _ (by omega), poke_ne _ _ (by omega), poke_ne _ _ (by omega)]
    · rw [poke_ne _ _ (by omega), poke_ne _ _ (by omega), poke_ne _ _ (by omega), poke_ne _ _ (by omega), poke_same]; rfl
    · rw [poke_ne _ _ (by omega), poke_ne _ _ (by omega), poke_same]; rfl
    · rw [poke_ne _ _ (by omega), poke_ne _ _ (by omega), poke_ne _ _ (by omega), poke_ne _ _ (by omega), poke_ne _ _ (by omega), poke_ne _ _ (by omega)]
    · rw [poke_same]; rfl
  obtain ⟨c5, h5', r5, k0, k1, k2, k3, k4, k5, k6, k7⟩ := key5
  subst k0
  refine ⟨c5, _, r4.trans r5, rfl, k1, k2.trans g2, by rw [k3]; exact g4, by rw [k4, g3]; exact y1, ?_, ?_, ?_, ?_, ?_, ?_, ?_, ?_, by rw [← g12 _ (by omega)]; exact k7⟩
  · rw [k5, g3]
    refine decide_eq_false (fun h => ?_)
    rw [h] at y1
    have : (0 : UInt8).toNat = 0 := rfl
    omega
  · rw [k6 _ (by omega)]; exact g5
  · rw [k6 _ (by omega)]; exact g6
  · rw [k6 _ (by omega)]; exact g7
  · rw [k6 _ (by omega)]; exact g8
  · rw [k6 _ (by omega)]; exact g9
  · intro p q1 q2
    rw [k6 _ (by omega)]; exact g10 p q1 q2
  · intro p hpl
    have hq : p / 256 < 0xc0 := by
      unfold loadable at hpl
      simp only [Bool.and_eq_true, bne_iff_ne, decide_eq_true_eq] at hpl
      omega
    rw [k6 _ (by omega)]; exact g11 p hpl

end Atr
