import Verif.Model.Executables
import Verif.Spec.Cpu6502
import Verif.Lemmas.Basic
/-! # The boot code of KBoot disks, instruction by instruction -/
namespace Atr

theorem Atari.Runs.trans {A : Atari} {c d e : Cpu} (h1 : A.Runs c d) (h2 : A.Runs d e) : A.Runs c e := by
  induction h1 with
  | refl => exact h2
  | step h _ ih => exact .step h (ih h2)

/-- the boot code in memory, but for the counter -/
def Code (m : Nat → UInt8) : Prop := ∀ p, 0x706 ≤ p → p < 0x7e3 → p ≠ 0x709 → p ≠ 0x70a → m p = xexbootHeader.getD (p - 0x700) 0

theorem decode_congr {m m' : Nat → UInt8} {p : Nat} (h0 : m p = m' p) (h1 : m ((p + 1) % 0x10000) = m' ((p + 1) % 0x10000))
    (h2 : m ((p + 2) % 0x10000) = m' ((p + 2) % 0x10000)) : decode6502 m p = decode6502 m' p := by
  unfold decode6502
  rw [h0, h1, h2]

/-- the boot code alone -/
def codeMem (p : Nat) : UInt8 := xexbootHeader.getD (p - 0x700) 0

theorem Code.decode {m} (h : Code m) {p : Nat} (hp : 0x70d ≤ p) (hq : p < 0x7e1) : decode6502 m p = decode6502 codeMem p := by
  have e : ∀ q, 0x70d ≤ q → q < 0x7e3 → m q = codeMem q := fun q h1 h2 => h q (by omega) h2 (by omega) (by omega)
  refine decode_congr (e _ hp (by omega)) ?_ ?_
  · rw [Nat.mod_eq_of_lt (by omega)]; exact e _ (by omega) (by omega)
  · rw [Nat.mod_eq_of_lt (by omega)]; exact e _ (by omega) (by omega)

theorem Code.poke {m} (h : Code m) {a : Nat} {v : UInt8} (ha : a < 0x706 ∨ 0x7e3 ≤ a ∨ a = 0x709 ∨ a = 0x70a) : Code (poke m a v) := by
  intro p h1 h2 h3 h4
  unfold Atr.poke
  rw [if_neg (by omega)]
  exact h p h1 h2 h3 h4

/-- one instruction -/
theorem runs1 {A : Atari} {c : Cpu} {i : Ins6502} {len : Nat} {P : Cpu → Prop} (hd : decode6502 c.mem c.pc = some (i, len)) (hp : c.pc ≠ 0xe459)
    (h : ∃ e, A.Runs (({ c with pc := (c.pc + len) % 0x10000 } : Cpu).exec i) e ∧ P e) : ∃ e, A.Runs c e ∧ P e := by
  obtain ⟨e, h1, h2⟩ := h
  refine ⟨e, .step ?_ h1, h2⟩
  unfold Atari.step
  rw [if_neg hp, hd]

theorem runs_br {A : Atari} {c : Cpu} {f v t} {P : Cpu → Prop} (hd : decode6502 c.mem c.pc = some (.br f v t, 2)) (hp : c.pc ≠ 0xe459)
    (hf : c.flag f = v) (h : ∃ e, A.Runs { c with pc := t } e ∧ P e) : ∃ e, A.Runs c e ∧ P e := by
  refine runs1 hd hp ?_
  have e : (({ c with pc := (c.pc + 2) % 0x10000 } : Cpu).exec (.br f v t)) = { c with pc := t } := by
    unfold Cpu.exec
    cases f <;> exact if_pos hf
  rw [e]
  exact h

theorem runs_no_br {A : Atari} {c : Cpu} {f v t} {P : Cpu → Prop} (hd : decode6502 c.mem c.pc = some (.br f v t, 2)) (hp : c.pc ≠ 0xe459)
    (hf : c.flag f = !v) (h : ∃ e, A.Runs { c with pc := (c.pc + 2) % 0x10000 } e ∧ P e) : ∃ e, A.Runs c e ∧ P e := by
  refine runs1 hd hp ?_
  have e : (({ c with pc := (c.pc + 2) % 0x10000 } : Cpu).exec (.br f v t)) = { c with pc := (c.pc + 2) % 0x10000 } := by
    unfold Cpu.exec
    cases f <;> exact if_neg (fun h' => by have := hf.symm.trans h'; cases v <;> cases this)
  rw [e]
  exact h

/-- the last two instructions, behind which other things lie -/
theorem Code.inx {m} (h : Code m) : decode6502 m 0x7e1 = some (.inx, 1) := by
  have : m 0x7e1 = 0xe8 := (h 0x7e1 (by decide) (by decide) (by decide) (by decide)).trans (by decide)
  unfold decode6502
  simp [this]

theorem Code.rts {m} (h : Code m) : decode6502 m 0x7e2 = some (.rts, 1) := by
  have : m 0x7e2 = 0x60 := (h 0x7e2 (by decide) (by decide) (by decide) (by decide)).trans (by decide)
  unfold decode6502
  simp [this]

/-! ### the instructions -/

theorem Code.at_70d {m} (h : Code m) : decode6502 m 0x70d = some (.ld .y (.imm 0x0), 2) := (h.decode (by decide) (by decide)).trans rfl
theorem Code.at_70f {m} (h : Code m) : decode6502 m 0x70f = some (.st .y (.abs 0x309), 3) := (h.decode (by decide) (by decide)).trans rfl
theorem Code.at_712 {m} (h : Code m) : decode6502 m 0x712 = some (.st .y (.abs 0x304), 3) := (h.decode (by decide) (by decide)).trans rfl
theorem Code.at_715 {m} (h : Code m) : decode6502 m 0x715 = some (.st .y (.abs 0x244), 3) := (h.decode (by decide) (by decide)).trans rfl
theorem Code.at_718 {m} (h : Code m) : decode6502 m 0x718 = some (.st .y (.abs 0x2e2), 3) := (h.decode (by decide) (by decide)).trans rfl
theorem Code.at_71b {m} (h : Code m) : decode6502 m 0x71b = some (.st .y (.abs 0x2e3), 3) := (h.decode (by decide) (by decide)).trans rfl
theorem Code.at_71e {m} (h : Code m) : decode6502 m 0x71e = some (.iny, 1) := (h.decode (by decide) (by decide)).trans rfl
theorem Code.at_71f {m} (h : Code m) : decode6502 m 0x71f = some (.st .y (.abs 0x9), 2) := (h.decode (by decide) (by decide)).trans rfl
theorem Code.at_721 {m} (h : Code m) : decode6502 m 0x721 = some (.st .y (.abs 0x301), 3) := (h.decode (by decide) (by decide)).trans rfl
theorem Code.at_724 {m} (h : Code m) : decode6502 m 0x724 = some (.dec 0x306, 3) := (h.decode (by decide) (by decide)).trans rfl
theorem Code.at_727 {m} (h : Code m) : decode6502 m 0x727 = some (.ld .a (.imm 0x31), 2) := (h.decode (by decide) (by decide)).trans rfl
theorem Code.at_729 {m} (h : Code m) : decode6502 m 0x729 = some (.st .a (.abs 0x300), 3) := (h.decode (by decide) (by decide)).trans rfl
theorem Code.at_72c {m} (h : Code m) : decode6502 m 0x72c = some (.ld .a (.imm 0x52), 2) := (h.decode (by decide) (by decide)).trans rfl
theorem Code.at_72e {m} (h : Code m) : decode6502 m 0x72e = some (.st .a (.abs 0x302), 3) := (h.decode (by decide) (by decide)).trans rfl
theorem Code.at_731 {m} (h : Code m) : decode6502 m 0x731 = some (.ld .a (.imm 0x80), 2) := (h.decode (by decide) (by decide)).trans rfl
theorem Code.at_733 {m} (h : Code m) : decode6502 m 0x733 = some (.st .a (.abs 0x308), 3) := (h.decode (by decide) (by decide)).trans rfl
theorem Code.at_736 {m} (h : Code m) : decode6502 m 0x736 = some (.ld .a (.imm 0x1), 2) := (h.decode (by decide) (by decide)).trans rfl
theorem Code.at_738 {m} (h : Code m) : decode6502 m 0x738 = some (.st .a (.abs 0x305), 3) := (h.decode (by decide) (by decide)).trans rfl
theorem Code.at_73b {m} (h : Code m) : decode6502 m 0x73b = some (.ld .a (.imm 0xe3), 2) := (h.decode (by decide) (by decide)).trans rfl
theorem Code.at_73d {m} (h : Code m) : decode6502 m 0x73d = some (.st .a (.abs 0x230), 3) := (h.decode (by decide) (by decide)).trans rfl
theorem Code.at_740 {m} (h : Code m) : decode6502 m 0x740 = some (.st .a (.abs 0xd402), 3) := (h.decode (by decide) (by decide)).trans rfl
theorem Code.at_743 {m} (h : Code m) : decode6502 m 0x743 = some (.ld .a (.imm 0x7), 2) := (h.decode (by decide) (by decide)).trans rfl
theorem Code.at_745 {m} (h : Code m) : decode6502 m 0x745 = some (.st .a (.abs 0x231), 3) := (h.decode (by decide) (by decide)).trans rfl
theorem Code.at_748 {m} (h : Code m) : decode6502 m 0x748 = some (.st .a (.abs 0xd403), 3) := (h.decode (by decide) (by decide)).trans rfl
theorem Code.at_74b {m} (h : Code m) : decode6502 m 0x74b = some (.ld .a (.imm 0x0), 2) := (h.decode (by decide) (by decide)).trans rfl
theorem Code.at_74d {m} (h : Code m) : decode6502 m 0x74d = some (.tax, 1) := (h.decode (by decide) (by decide)).trans rfl
theorem Code.at_74e {m} (h : Code m) : decode6502 m 0x74e = some (.st .a (.abs 0x30b), 3) := (h.decode (by decide) (by decide)).trans rfl
theorem Code.at_751 {m} (h : Code m) : decode6502 m 0x751 = some (.ld .a (.imm 0x4), 2) := (h.decode (by decide) (by decide)).trans rfl
theorem Code.at_753 {m} (h : Code m) : decode6502 m 0x753 = some (.st .a (.abs 0x30a), 3) := (h.decode (by decide) (by decide)).trans rfl
theorem Code.at_756 {m} (h : Code m) : decode6502 m 0x756 = some (.jsr 0x7bc, 3) := (h.decode (by decide) (by decide)).trans rfl
theorem Code.at_759 {m} (h : Code m) : decode6502 m 0x759 = some (.dex, 1) := (h.decode (by decide) (by decide)).trans rfl
theorem Code.at_75a {m} (h : Code m) : decode6502 m 0x75a = some (.jsr 0x7a5, 3) := (h.decode (by decide) (by decide)).trans rfl
theorem Code.at_75d {m} (h : Code m) : decode6502 m 0x75d = some (.st .a (.abs 0x43), 2) := (h.decode (by decide) (by decide)).trans rfl
theorem Code.at_75f {m} (h : Code m) : decode6502 m 0x75f = some (.jsr 0x7a5, 3) := (h.decode (by decide) (by decide)).trans rfl
theorem Code.at_762 {m} (h : Code m) : decode6502 m 0x762 = some (.st .a (.abs 0x44), 2) := (h.decode (by decide) (by decide)).trans rfl
theorem Code.at_764 {m} (h : Code m) : decode6502 m 0x764 = some (.and (.abs 0x43), 2) := (h.decode (by decide) (by decide)).trans rfl
theorem Code.at_766 {m} (h : Code m) : decode6502 m 0x766 = some (.cmp .a (.imm 0xff), 2) := (h.decode (by decide) (by decide)).trans rfl
theorem Code.at_768 {m} (h : Code m) : decode6502 m 0x768 = some (.br .z true 0x75a, 2) := (h.decode (by decide) (by decide)).trans rfl
theorem Code.at_76a {m} (h : Code m) : decode6502 m 0x76a = some (.jsr 0x7a5, 3) := (h.decode (by decide) (by decide)).trans rfl
theorem Code.at_76d {m} (h : Code m) : decode6502 m 0x76d = some (.st .a (.abs 0x45), 2) := (h.decode (by decide) (by decide)).trans rfl
theorem Code.at_76f {m} (h : Code m) : decode6502 m 0x76f = some (.jsr 0x7a5, 3) := (h.decode (by decide) (by decide)).trans rfl
theorem Code.at_772 {m} (h : Code m) : decode6502 m 0x772 = some (.st .a (.abs 0x46), 2) := (h.decode (by decide) (by decide)).trans rfl
theorem Code.at_774 {m} (h : Code m) : decode6502 m 0x774 = some (.jsr 0x7a5, 3) := (h.decode (by decide) (by decide)).trans rfl
theorem Code.at_777 {m} (h : Code m) : decode6502 m 0x777 = some (.st .a (.indY 0x43), 2) := (h.decode (by decide) (by decide)).trans rfl
theorem Code.at_779 {m} (h : Code m) : decode6502 m 0x779 = some (.inc 0x43, 2) := (h.decode (by decide) (by decide)).trans rfl
theorem Code.at_77b {m} (h : Code m) : decode6502 m 0x77b = some (.br .z false 0x77f, 2) := (h.decode (by decide) (by decide)).trans rfl
theorem Code.at_77d {m} (h : Code m) : decode6502 m 0x77d = some (.inc 0x44, 2) := (h.decode (by decide) (by decide)).trans rfl
theorem Code.at_77f {m} (h : Code m) : decode6502 m 0x77f = some (.ld .a (.abs 0x45), 2) := (h.decode (by decide) (by decide)).trans rfl
theorem Code.at_781 {m} (h : Code m) : decode6502 m 0x781 = some (.cmp .a (.abs 0x43), 2) := (h.decode (by decide) (by decide)).trans rfl
theorem Code.at_783 {m} (h : Code m) : decode6502 m 0x783 = some (.ld .a (.abs 0x46), 2) := (h.decode (by decide) (by decide)).trans rfl
theorem Code.at_785 {m} (h : Code m) : decode6502 m 0x785 = some (.sbc (.abs 0x44), 2) := (h.decode (by decide) (by decide)).trans rfl
theorem Code.at_787 {m} (h : Code m) : decode6502 m 0x787 = some (.br .c true 0x774, 2) := (h.decode (by decide) (by decide)).trans rfl
theorem Code.at_789 {m} (h : Code m) : decode6502 m 0x789 = some (.ld .a (.abs 0x2e2), 3) := (h.decode (by decide) (by decide)).trans rfl
theorem Code.at_78c {m} (h : Code m) : decode6502 m 0x78c = some (.or (.abs 0x2e3), 3) := (h.decode (by decide) (by decide)).trans rfl
theorem Code.at_78f {m} (h : Code m) : decode6502 m 0x78f = some (.br .z true 0x75a, 2) := (h.decode (by decide) (by decide)).trans rfl
theorem Code.at_791 {m} (h : Code m) : decode6502 m 0x791 = some (.st .x (.abs 0x19), 2) := (h.decode (by decide) (by decide)).trans rfl
theorem Code.at_793 {m} (h : Code m) : decode6502 m 0x793 = some (.jsr 0x7a2, 3) := (h.decode (by decide) (by decide)).trans rfl
theorem Code.at_796 {m} (h : Code m) : decode6502 m 0x796 = some (.ld .x (.abs 0x19), 2) := (h.decode (by decide) (by decide)).trans rfl
theorem Code.at_798 {m} (h : Code m) : decode6502 m 0x798 = some (.ld .y (.imm 0x0), 2) := (h.decode (by decide) (by decide)).trans rfl
theorem Code.at_79a {m} (h : Code m) : decode6502 m 0x79a = some (.st .y (.abs 0x2e2), 3) := (h.decode (by decide) (by decide)).trans rfl
theorem Code.at_79d {m} (h : Code m) : decode6502 m 0x79d = some (.st .y (.abs 0x2e3), 3) := (h.decode (by decide) (by decide)).trans rfl
theorem Code.at_7a0 {m} (h : Code m) : decode6502 m 0x7a0 = some (.br .z true 0x75a, 2) := (h.decode (by decide) (by decide)).trans rfl
theorem Code.at_7a2 {m} (h : Code m) : decode6502 m 0x7a2 = some (.jmpInd 0x2e2, 3) := (h.decode (by decide) (by decide)).trans rfl
theorem Code.at_7a5 {m} (h : Code m) : decode6502 m 0x7a5 = some (.ld .a (.abs 0x709), 3) := (h.decode (by decide) (by decide)).trans rfl
theorem Code.at_7a8 {m} (h : Code m) : decode6502 m 0x7a8 = some (.br .z false 0x7b5, 2) := (h.decode (by decide) (by decide)).trans rfl
theorem Code.at_7aa {m} (h : Code m) : decode6502 m 0x7aa = some (.ld .a (.abs 0x70a), 3) := (h.decode (by decide) (by decide)).trans rfl
theorem Code.at_7ad {m} (h : Code m) : decode6502 m 0x7ad = some (.br .z false 0x7b2, 2) := (h.decode (by decide) (by decide)).trans rfl
theorem Code.at_7af {m} (h : Code m) : decode6502 m 0x7af = some (.jmpInd 0x2e0, 3) := (h.decode (by decide) (by decide)).trans rfl
theorem Code.at_7b2 {m} (h : Code m) : decode6502 m 0x7b2 = some (.dec 0x70a, 3) := (h.decode (by decide) (by decide)).trans rfl
theorem Code.at_7b5 {m} (h : Code m) : decode6502 m 0x7b5 = some (.dec 0x709, 3) := (h.decode (by decide) (by decide)).trans rfl
theorem Code.at_7b8 {m} (h : Code m) : decode6502 m 0x7b8 = some (.cmp .x (.imm 0x80), 2) := (h.decode (by decide) (by decide)).trans rfl
theorem Code.at_7ba {m} (h : Code m) : decode6502 m 0x7ba = some (.br .c false 0x7de, 2) := (h.decode (by decide) (by decide)).trans rfl
theorem Code.at_7bc {m} (h : Code m) : decode6502 m 0x7bc = some (.ld .a (.imm 0x40), 2) := (h.decode (by decide) (by decide)).trans rfl
theorem Code.at_7be {m} (h : Code m) : decode6502 m 0x7be = some (.st .a (.abs 0x303), 3) := (h.decode (by decide) (by decide)).trans rfl
theorem Code.at_7c1 {m} (h : Code m) : decode6502 m 0x7c1 = some (.jsr 0xe459, 3) := (h.decode (by decide) (by decide)).trans rfl
theorem Code.at_7c4 {m} (h : Code m) : decode6502 m 0x7c4 = some (.br .n false 0x7cc, 2) := (h.decode (by decide) (by decide)).trans rfl
theorem Code.at_7c6 {m} (h : Code m) : decode6502 m 0x7c6 = some (.dec 0x701, 3) := (h.decode (by decide) (by decide)).trans rfl
theorem Code.at_7c9 {m} (h : Code m) : decode6502 m 0x7c9 = some (.br .z false 0x7bc, 2) := (h.decode (by decide) (by decide)).trans rfl
theorem Code.at_7cc {m} (h : Code m) : decode6502 m 0x7cc = some (.inc 0x30a, 3) := (h.decode (by decide) (by decide)).trans rfl
theorem Code.at_7cf {m} (h : Code m) : decode6502 m 0x7cf = some (.br .z false 0x7d4, 2) := (h.decode (by decide) (by decide)).trans rfl
theorem Code.at_7d1 {m} (h : Code m) : decode6502 m 0x7d1 = some (.inc 0x30b, 3) := (h.decode (by decide) (by decide)).trans rfl
theorem Code.at_7d4 {m} (h : Code m) : decode6502 m 0x7d4 = some (.ld .a (.abs 0x30a), 3) := (h.decode (by decide) (by decide)).trans rfl
theorem Code.at_7d7 {m} (h : Code m) : decode6502 m 0x7d7 = some (.st .a (.abs 0xd019), 3) := (h.decode (by decide) (by decide)).trans rfl
theorem Code.at_7da {m} (h : Code m) : decode6502 m 0x7da = some (.ld .y (.imm 0x0), 2) := (h.decode (by decide) (by decide)).trans rfl
theorem Code.at_7dc {m} (h : Code m) : decode6502 m 0x7dc = some (.ld .x (.imm 0x0), 2) := (h.decode (by decide) (by decide)).trans rfl
theorem Code.at_7de {m} (h : Code m) : decode6502 m 0x7de = some (.ld .a (.absX 0x100), 3) := (h.decode (by decide) (by decide)).trans rfl

/-- the addresses the boot code and the operating system need while it runs -/
structure Apart (A : Atari) : Prop where
  page0 : ∀ p, 0x43 ≤ p → p ≤ 0x46 → ¬ A.os p
  stack : ∀ p, 0x100 ≤ p → p ≤ 0x1ff → ¬ A.os p
  vectors : ∀ p, 0x2e0 ≤ p → p ≤ 0x2e3 → ¬ A.os p
  dcb : ∀ p, 0x300 ≤ p → p ≤ 0x30b → ¬ A.os p
  code : ∀ p, 0x706 ≤ p → p ≤ 0x7e2 → ¬ A.os p

/-- the device control block is set up for reading into page 1 -/
structure Dcb (m : Nat → UInt8) : Prop where
  device : m 0x300 = 0x31
  unit : m 0x301 = 1
  command : m 0x302 = 0x52
  bufLo : m 0x304 = 0
  bufHi : m 0x305 = 1
  lenLo : m 0x308 = 0x80
  lenHi : m 0x309 = 0

/-- what reading a byte may change -/
def Scratch (A : Atari) (p : Nat) : Prop :=
  A.os p ∨ (0x100 ≤ p ∧ p ≤ 0x1ff) ∨ p = 0x303 ∨ p = 0x30a ∨ p = 0x30b ∨ p = 0x709 ∨ p = 0x70a ∨ p = 0xd019

theorem poke_same (m : Nat → UInt8) (a : Nat) (v : UInt8) : poke m a v a = v := if_pos rfl
theorem poke_ne (m : Nat → UInt8) {a p : Nat} (v : UInt8) (h : p ≠ a) : poke m a v p = m p := if_neg h

theorem u8_sub1 {s : UInt8} (h : 1 ≤ s.toNat) : (s - 1).toNat = s.toNat - 1 := by
  have h' : (1 : UInt8) ≤ s := UInt8.le_iff_toNat_le.mpr h
  rw [UInt8.toNat_sub_of_le _ _ h']; rfl

theorem u8_add {s : UInt8} (k : UInt8) (h : s.toNat + k.toNat < 256) : (s + k).toNat = s.toNat + k.toNat := by
  rw [UInt8.toNat_add, Nat.mod_eq_of_lt h]

theorem word_lt (a b : UInt8) : word a b < 0x10000 := by
  unfold word
  have := a.toNat_lt
  have := b.toNat_lt
  omega

/-- do one instruction and tidy up -/
local macro "ins " t:term : tactic => `(tactic| (
  refine runs1 $t (by simp) ?_
  simp only [Cpu.exec, Cpu.setReg, Cpu.value, Cpu.addr, Cpu.reg, Cpu.flag, Cpu.modify, Nat.reduceAdd, Nat.reduceMod]))

local macro "br " t:term "," h:term : tactic => `(tactic| (
  refine runs_br $t (by simp) $h ?_
  simp only))
local macro "nobr " t:term "," h:term : tactic => `(tactic| (
  refine runs_no_br $t (by simp) $h ?_
  simp only [Nat.reduceAdd, Nat.reduceMod]))

/-- a call: the state in the routine, with the return address on the stack -/
theorem exec_jsr (c : Cpu) (a : Nat) (hs : 1 ≤ c.s.toNat) : c.exec (.jsr a) = { c with
    pc := a, s := c.s - 1 - 1,
    mem := poke (poke c.mem (0x100 + c.s.toNat) (UInt8.ofNat ((c.pc + 0xffff) % 0x10000 / 256))) (0x100 + (c.s.toNat - 1)) (UInt8.ofNat ((c.pc + 0xffff) % 0x10000)) } := by
  rw [← u8_sub1 hs]
  rfl

/-- the routine at 0x7bc up to the call of the operating system and back -/
theorem read_sio {A : Atari} (ha : Apart A) {c : Cpu} (hc : Code c.mem) (hd : Dcb c.mem) (hpc : c.pc = 0x7bc) (hs : 0x82 ≤ c.s.toNat) {d : Bytes}
    (hdisk : A.disk (word (c.mem 0x30a) (c.mem 0x30b)) = some d) :
    ∃ e, A.Runs c e ∧ e.pc = 0x7c4 ∧ e.s = c.s ∧ e.n = false ∧ (∀ t < 128, e.mem (0x100 + t) = d.getD t 0) ∧
      e.mem 0x303 = 1 ∧ (∀ p, ¬ A.os p → p ≠ 0x303 → ¬ (0x100 ≤ p ∧ p ≤ 0x100 + c.s.toNat) → e.mem p = c.mem p) := by
  obtain ⟨a, x, y, s, n, z, cf, pc, m⟩ := c
  simp only at hc hd hpc hs hdisk ⊢
  subst hpc
  ins hc.at_7bc
  ins hc.at_7be
  have hc1 : Code (poke m 0x303 0x40) := hc.poke (by omega)
  refine runs1 hc1.at_7c1 (by simp) ?_
  rw [exec_jsr _ _ (show 1 ≤ s.toNat by omega)]
  simp only [Nat.reduceAdd, Nat.reduceMod, Nat.reduceDiv]
  have hslt := s.toNat_lt
  generalize hm : poke (poke (poke m 0x303 0x40) (0x100 + s.toNat) (UInt8.ofNat 7)) (0x100 + (s.toNat - 1)) (UInt8.ofNat 1987) = m'
  have hsame : ∀ p, p ≠ 0x303 → ¬ (0x180 ≤ p ∧ p ≤ 0x100 + s.toNat) → m' p = m p := by
    intro p h1 h2
    rw [← hm, poke_ne _ _ (by omega), poke_ne _ _ (by omega), poke_ne _ _ h1]
  have h303 : m' 0x303 = 0x40 := by rw [← hm, poke_ne _ _ (by omega), poke_ne _ _ (by omega), poke_same]
  have hlo : m' (0x100 + (s.toNat - 1)) = 0xc3 := by rw [← hm, poke_same]; rfl
  have hhi : m' (0x100 + s.toNat) = 7 := by rw [← hm, poke_ne _ _ (by omega), poke_same]; rfl
  have hs2 : (s - 1 - 1).toNat = s.toNat - 2 := by rw [u8_sub1 (by rw [u8_sub1 (by omega)]; omega), u8_sub1 (by omega)]; omega
  have hp1 : (s - 1 - 1 + 1).toNat = s.toNat - 1 := by rw [u8_add 1 (by rw [hs2]; show _ + 1 < 256; omega), hs2]; show _ + 1 = _; omega
  have hp2 : (s - 1 - 1 + 2).toNat = s.toNat := by rw [u8_add 2 (by rw [hs2]; show _ + 2 < 256; omega), hs2]; show _ + 2 = _; omega
  refine ⟨_, .step (d := ?_) (?_ : A.step _ = some _) (.refl _), ?_⟩
  rotate_left
  · unfold Atari.step
    rw [if_pos rfl]
    unfold Atari.sio
    simp only
    rw [if_pos, hsame 0x30a (by omega) (by omega), hsame 0x30b (by omega) (by omega), hdisk]
    refine ⟨?_, ?_, ?_, h303, ?_⟩
    · rw [hsame _ (by omega) (by omega)]; exact hd.device
    · rw [hsame _ (by omega) (by omega)]; exact hd.unit
    · rw [hsame _ (by omega) (by omega)]; exact hd.command
    · rw [hsame _ (by omega) (by omega), hsame _ (by omega) (by omega), hd.lenLo, hd.lenHi]; rfl
  have hbuf : word (m' 0x304) (m' 0x305) = 0x100 := by
    rw [hsame _ (by omega) (by omega), hsame _ (by omega) (by omega), hd.bufLo, hd.bufHi]; rfl
  simp only [Cpu.ret, hbuf, hs2, hp1, hp2]
  refine ⟨?_, ?_, trivial, ?_, ?_, ?_⟩
  · rw [if_neg (by omega), if_neg (by omega), if_neg, if_neg (by omega), if_neg (by omega), if_neg, hlo, hhi]
    · rfl
    · rintro (h | h)
      · exact ha.stack _ (by omega) (by omega) h
      · omega
    · rintro (h | h)
      · exact ha.stack _ (by omega) (by omega) h
      · omega
  · apply UInt8.toNat_inj.mp; exact hp2
  · intro t ht
    rw [if_pos (by omega), Nat.add_sub_cancel_left]
  · rw [if_neg (by omega), if_pos trivial]
  · intro p h1 h2 h3
    rw [if_neg (by omega), if_neg h2, if_neg (by rintro (h | h); exact h1 h; omega)]
    exact hsame p h2 (by omega)

/-- counting up a 16-bit number in memory -/
theorem word_inc {lo hi : UInt8} (h : word lo hi + 1 < 0x10000) :
    (isZero (lo + 1) = false → word (lo + 1) hi = word lo hi + 1) ∧ (isZero (lo + 1) = true → word (lo + 1) (hi + 1) = word lo hi + 1) := by
  unfold isZero word at *
  have h1 := lo.toNat_lt
  have h2 := hi.toNat_lt
  have e : (lo + 1).toNat = (lo.toNat + 1) % 256 := UInt8.toNat_add lo 1
  have e2 : (hi + 1).toNat = (hi.toNat + 1) % 256 := UInt8.toNat_add hi 1
  refine ⟨fun hz => ?_, fun hz => ?_⟩
  · have : (lo + 1).toNat ≠ 0 := fun h0 => by
      have : lo + 1 = 0 := UInt8.toNat_inj.mp h0
      simp [this] at hz
    omega
  · have : (lo + 1).toNat = 0 := by rw [show lo + 1 = 0 by simpa using hz]; rfl
    omega

theorem word_inc_mod {lo hi : UInt8} :
    (isZero (lo + 1) = false → word (lo + 1) hi = (word lo hi + 1) % 0x10000) ∧ (isZero (lo + 1) = true → word (lo + 1) (hi + 1) = (word lo hi + 1) % 0x10000) := by
  unfold isZero word
  have h1 := lo.toNat_lt
  have h2 := hi.toNat_lt
  have e : (lo + 1).toNat = (lo.toNat + 1) % 256 := UInt8.toNat_add lo 1
  have e2 : (hi + 1).toNat = (hi.toNat + 1) % 256 := UInt8.toNat_add hi 1
  refine ⟨fun hz => ?_, fun hz => ?_⟩
  · have : (lo + 1).toNat ≠ 0 := fun h0 => by
      have : lo + 1 = 0 := UInt8.toNat_inj.mp h0
      simp [this] at hz
    omega
  · have : (lo + 1).toNat = 0 := by rw [show lo + 1 = 0 by simpa using hz]; rfl
    omega

/-- counting down -/
theorem word_dec {lo hi : UInt8} {k : Nat} (h : word lo hi = k + 1) :
    (isZero lo = false → word (lo - 1) hi = k) ∧ (isZero lo = true → isZero hi = false ∧ word (lo - 1) (hi - 1) = k) := by
  unfold isZero word at *
  have h1 := lo.toNat_lt
  have h2 := hi.toNat_lt
  refine ⟨fun hz => ?_, fun hz => ?_⟩
  · have : lo.toNat ≠ 0 := fun h0 => by
      have : lo = 0 := UInt8.toNat_inj.mp h0
      simp [this] at hz
    rw [u8_sub1 (by omega)]
    omega
  · have hl : lo = 0 := by simpa using hz
    subst hl
    have h0 : (0 : UInt8).toNat = 0 := rfl
    have : hi.toNat ≠ 0 := by omega
    refine ⟨?_, ?_⟩
    · simp only [decide_eq_false_iff_not]
      intro h0; rw [h0] at this; exact this rfl
    · rw [u8_sub1 (s := hi) (by omega)]
      show (255 : Nat) + _ = _
      omega

/-- the routine from the return of the operating system on -/
theorem read_rest {A : Atari} {c : Cpu} (hc : Code c.mem) (hpc : c.pc = 0x7c4) (hn : c.n = false)
    (hmax : word (c.mem 0x30a) (c.mem 0x30b) + 1 < 0x10000) :
    ∃ e, A.Runs c e ∧ e.pc = (c.ret).pc ∧ e.s = c.s + 2 ∧ e.x = 1 ∧ e.y = 0 ∧ e.a = c.mem 0x100 ∧
      word (e.mem 0x30a) (e.mem 0x30b) = word (c.mem 0x30a) (c.mem 0x30b) + 1 ∧
      (∀ p, p ≠ 0x30a → p ≠ 0x30b → p ≠ 0xd019 → e.mem p = c.mem p) := by
  obtain ⟨a, x, y, s, n, z, cf, pc, m⟩ := c
  simp only at hc hpc hn hmax ⊢
  subst hpc
  subst hn
  br hc.at_7c4, rfl
  ins hc.at_7cc
  have hc1 : Code (poke m 0x30a (m 0x30a + 1)) := hc.poke (by omega)
  obtain ⟨w1, w2⟩ := word_inc hmax
  -- the last part, for any memory
  have tail : ∀ (m' : Nat → UInt8) (a x y : UInt8) (n z cf : Bool), Code m' → word (m' 0x30a) (m' 0x30b) = word (m 0x30a) (m 0x30b) + 1 →
      (∀ p, p ≠ 0x30a → p ≠ 0x30b → m' p = m p) →
      ∃ e, A.Runs ⟨a, x, y, s, n, z, cf, 0x7d4, m'⟩ e ∧ e.pc = (Cpu.ret ⟨a, x, y, s, n, z, cf, 0x7d4, m⟩).pc ∧ e.s = s + 2 ∧ e.x = 1 ∧ e.y = 0 ∧ e.a = m 0x100 ∧
        word (e.mem 0x30a) (e.mem 0x30b) = word (m 0x30a) (m 0x30b) + 1 ∧ (∀ p, p ≠ 0x30a → p ≠ 0x30b → p ≠ 0xd019 → e.mem p = m p) := by
    intro m' a x y n z cf hc hw hm
    ins hc.at_7d4
    ins hc.at_7d7
    have hc2 : Code (poke m' 0xd019 (m' 0x30a)) := hc.poke (by omega)
    ins hc2.at_7da
    ins hc2.at_7dc
    ins hc2.at_7de
    ins hc2.inx
    ins hc2.rts
    refine ⟨_, .refl _, ?_⟩
    have hst : ∀ k : Nat, k < 256 → poke m' 0xd019 (m' 0x30a) (0x100 + k) = m (0x100 + k) := by
      intro k hk
      rw [poke_ne _ _ (by omega), hm _ (by omega) (by omega)]
    have l1 := (s + 1).toNat_lt
    have l2 := (s + 2).toNat_lt
    refine ⟨?_, rfl, rfl, rfl, ?_, ?_, ?_⟩
    · unfold Cpu.ret
      simp only
      rw [hst _ l1, hst _ l2]
    · exact hst 0 (by omega)
    · show word (poke m' _ _ _) (poke m' _ _ _) = _
      rw [poke_ne _ _ (by omega), poke_ne _ _ (by omega)]
      exact hw
    · intro p h1 h2 h3
      show poke m' _ _ p = _
      rw [poke_ne _ _ h3, hm p h1 h2]
  cases hz : isZero (m 0x30a + 1) with
  | false =>
    br hc1.at_7cf, rfl
    refine tail _ _ _ _ _ _ _ hc1 ?_ ?_
    · rw [poke_same, poke_ne _ _ (by omega)]; exact w1 hz
    · intro p h1 h2; rw [poke_ne _ _ h1]
  | true =>
    nobr hc1.at_7cf, rfl
    ins hc1.at_7d1
    refine tail _ _ _ _ _ _ _ (hc1.poke (by omega)) ?_ ?_
    · rw [poke_ne _ _ (by omega), poke_same, poke_same, poke_ne _ _ (by omega)]; exact w2 hz
    · intro p h1 h2; rw [poke_ne _ _ h2, poke_ne _ _ h1]

/-- the sectors from number 4 on hold the bytes `x` -/
def OnDisk (A : Atari) (x : Bytes) : Prop :=
  ∀ j, 128 * j < x.length → ∃ d, A.disk (4 + j) = some d ∧ ∀ t < 128, d.getD t 0 = x.getD (128 * j + t) 0

/-- `i` bytes of `x` have been read -/
structure Ready (x : Bytes) (i : Nat) (c : Cpu) : Prop where
  code : Code c.mem
  dcb : Dcb c.mem
  y : c.y = 0
  le : i ≤ x.length
  count : word (c.mem 0x709) (c.mem 0x70a) = x.length - i
  buffer : ∃ j, c.x.toNat + 128 * j = i ∧ c.x.toNat ≤ 128 ∧ word (c.mem 0x30a) (c.mem 0x30b) = 5 + j ∧
    ∀ t < 128, c.mem (0x100 + t) = x.getD (128 * j + t) 0

/-- counting down the bytes left: from 0x7a5 to 0x7b8 -/
theorem count_block {A : Atari} {c : Cpu} (hc : Code c.mem) (hpc : c.pc = 0x7a5) {k : Nat} (hk : word (c.mem 0x709) (c.mem 0x70a) = k + 1) :
    ∃ e, A.Runs c e ∧ e.pc = 0x7b8 ∧ e.s = c.s ∧ e.x = c.x ∧ e.y = c.y ∧ word (e.mem 0x709) (e.mem 0x70a) = k ∧
      ∀ p, p ≠ 0x709 → p ≠ 0x70a → e.mem p = c.mem p := by
  obtain ⟨a, x, y, s, n, z, cf, pc, m⟩ := c
  simp only at hc hpc hk ⊢
  subst hpc
  obtain ⟨w1, w2⟩ := word_dec hk
  ins hc.at_7a5
  cases hz : isZero (m 0x709) with
  | false =>
    br hc.at_7a8, rfl
    ins hc.at_7b5
    refine ⟨_, .refl _, rfl, rfl, rfl, rfl, ?_, fun p h1 h2 => poke_ne _ _ h1⟩
    show word (poke m _ _ _) (poke m _ _ _) = k
    rw [poke_same, poke_ne _ _ (by omega)]
    exact w1 hz
  | true =>
    obtain ⟨w2, w3⟩ := w2 hz
    nobr hc.at_7a8, rfl
    ins hc.at_7aa
    rw [w2]
    br hc.at_7ad, rfl
    ins hc.at_7b2
    have hc1 : Code (poke m 0x70a (m 0x70a - 1)) := hc.poke (by omega)
    ins hc1.at_7b5
    refine ⟨_, .refl _, rfl, rfl, rfl, rfl, ?_, ?_⟩
    · show word (poke _ _ _ _) (poke _ _ _ _) = k
      rw [poke_same, poke_ne _ _ (by omega), poke_ne _ _ (by omega), poke_same]
      exact w3
    · intro p h1 h2
      show poke _ _ _ _ = _
      rw [poke_ne _ _ h1, poke_ne _ _ h2]

/-- when no byte is left the program is started -/
theorem finish_block {A : Atari} {c : Cpu} (hc : Code c.mem) (hpc : c.pc = 0x7a5) (hk : word (c.mem 0x709) (c.mem 0x70a) = 0) :
    ∃ e, A.Runs c e ∧ e.pc = word (c.mem 0x2e0) (c.mem 0x2e1) ∧ e.mem = c.mem := by
  obtain ⟨a, x, y, s, n, z, cf, pc, m⟩ := c
  simp only at hc hpc hk ⊢
  subst hpc
  have h1 : isZero (m 0x709) = true := by
    unfold word at hk
    have : m 0x709 = 0 := UInt8.toNat_inj.mp (show _ = 0 by omega)
    unfold isZero; rw [this]; rfl
  have h2 : isZero (m 0x70a) = true := by
    unfold word at hk
    have : m 0x70a = 0 := UInt8.toNat_inj.mp (show _ = 0 by omega)
    unfold isZero; rw [this]; rfl
  ins hc.at_7a5
  rw [h1]
  nobr hc.at_7a8, rfl
  ins hc.at_7aa
  rw [h2]
  nobr hc.at_7ad, rfl
  ins hc.at_7af
  exact ⟨_, .refl _, rfl, rfl⟩

theorem scratch_code {A : Atari} (ha : Apart A) {p : Nat} (h1 : 0x706 ≤ p) (h2 : p ≤ 0x7e2) (h3 : p ≠ 0x709) (h4 : p ≠ 0x70a) : ¬ Scratch A p := by
  rintro (h | h)
  · exact ha.code p h1 h2 h
  · omega

/-- the code, the device control block and the init vector are kept by everything that keeps what is not scratch -/
theorem Code.keep {A : Atari} (ha : Apart A) {m m' : Nat → UInt8} (hc : Code m) (h : ∀ p, ¬ Scratch A p → m' p = m p) : Code m' :=
  fun p h1 h2 h3 h4 => (h p (scratch_code ha h1 (by omega) h3 h4)).trans (hc p h1 h2 h3 h4)

theorem Dcb.keep {A : Atari} (ha : Apart A) {m m' : Nat → UInt8} (hd : Dcb m) (h : ∀ p, ¬ Scratch A p → m' p = m p) : Dcb m' := by
  have key : ∀ p, 0x300 ≤ p → p ≤ 0x309 → p ≠ 0x303 → m' p = m p := fun p h1 h2 h3 => h p (by
    rintro (hx | hx)
    · exact ha.dcb p h1 (by omega) hx
    · omega)
  exact ⟨(key _ (by omega) (by omega) (by omega)).trans hd.device, (key _ (by omega) (by omega) (by omega)).trans hd.unit,
    (key _ (by omega) (by omega) (by omega)).trans hd.command, (key _ (by omega) (by omega) (by omega)).trans hd.bufLo,
    (key _ (by omega) (by omega) (by omega)).trans hd.bufHi, (key _ (by omega) (by omega) (by omega)).trans hd.lenLo,
    (key _ (by omega) (by omega) (by omega)).trans hd.lenHi⟩

theorem ret_pc {c d : Cpu} (hs : d.s = c.s) (hm : ∀ k, 0x100 + c.s.toNat < k → k ≤ 0x1ff → d.mem k = c.mem k) (h : c.s.toNat ≤ 0xfd) : d.ret.pc = c.ret.pc := by
  unfold Cpu.ret
  simp only
  have e1 : (c.s + 1).toNat = c.s.toNat + 1 := u8_add 1 (by show _ + 1 < 256; omega)
  have e2 : (c.s + 2).toNat = c.s.toNat + 2 := u8_add 2 (by show _ + 2 < 256; omega)
  rw [hs, e1, e2, hm _ (by omega) (by omega), hm _ (by omega) (by omega)]

/-- **the routine at 0x7a5 gets the next byte** -/
theorem get_byte {A : Atari} (ha : Apart A) {x : Bytes} (hx : OnDisk A x) (hlen : x.length < 0x10000) {i : Nat} {c : Cpu} (hr : Ready x i c) (hi : i < x.length)
    (hpc : c.pc = 0x7a5) (hs : 0x82 ≤ c.s.toNat) (hs' : c.s.toNat ≤ 0xfd) :
    ∃ e, A.Runs c e ∧ Ready x (i + 1) e ∧ e.pc = c.ret.pc ∧ e.s = c.s + 2 ∧ e.a = x.getD i 0 ∧ ∀ p, ¬ Scratch A p → e.mem p = c.mem p := by
  obtain ⟨c1, r1, p1, s1, x1, y1, k1, m1⟩ := count_block (A := A) hr.code hpc (k := x.length - (i + 1)) (by rw [hr.count]; omega)
  have keep1 : ∀ p, ¬ Scratch A p → c1.mem p = c.mem p := fun p hp => m1 p (fun h => hp (by unfold Scratch; omega)) (fun h => hp (by unfold Scratch; omega))
  have hc1 := hr.code.keep ha keep1
  have hd1 := hr.dcb.keep ha keep1
  obtain ⟨j, b1, b2, b3, b4⟩ := hr.buffer
  by_cases hX : c.x.toNat < 128
  · -- the byte is in the buffer
    have key : ∃ e, A.Runs c1 e ∧ (e.pc = c1.ret.pc ∧ e.s = c1.s + 2 ∧ e.a = c1.mem (0x100 + c1.x.toNat) ∧ e.x = c1.x + 1 ∧ e.y = c1.y ∧ e.mem = c1.mem) := by
      have hX1 : c1.x.toNat < 128 := by rw [x1]; exact hX
      obtain ⟨a, x, y, s, n, z, cf, pc, m⟩ := c1
      simp only at hc1 p1 hX1 ⊢
      subst p1
      ins hc1.at_7b8
      rw [show isGe x.toNat (UInt8.toNat 128) = false from decide_eq_false (by show ¬ 128 ≤ x.toNat; omega)]
      br hc1.at_7ba, rfl
      ins hc1.at_7de
      ins hc1.inx
      ins hc1.rts
      refine ⟨_, .refl _, rfl, rfl, ?_, rfl, rfl, rfl⟩
      show m ((256 + x.toNat) % 65536) = _
      rw [Nat.mod_eq_of_lt (by omega)]
    obtain ⟨e, r2, e1, e2, e3, e4, e5, e6⟩ := key
    refine ⟨e, r1.trans r2, ⟨by rw [e6]; exact hc1, by rw [e6]; exact hd1, by rw [e5, y1]; exact hr.y, by omega,
      by rw [e6]; exact k1, j, ?_, ?_, ?_, ?_⟩, ?_, ?_, ?_, ?_⟩
    · rw [e4, x1, u8_add 1 (by show _ + 1 < 256; omega)]; show _ + 1 + _ = _; omega
    · rw [e4, x1, u8_add 1 (by show _ + 1 < 256; omega)]; show _ + 1 ≤ _; omega
    · rw [e6, m1 _ (by omega) (by omega), m1 _ (by omega) (by omega)]; exact b3
    · intro t ht; rw [e6, m1 _ (by omega) (by omega)]; exact b4 t ht
    · rw [e1]; exact ret_pc s1 (fun k h1 h2 => m1 k (by omega) (by omega)) hs'
    · rw [e2, s1]
    · rw [e3, x1, m1 _ (by omega) (by omega), b4 _ hX]; congr 1; omega
    · rw [e6]; exact keep1
  · -- the next sector is needed
    have hX' : c.x.toNat = 128 := by omega
    obtain ⟨d, hd2, hd3⟩ := hx (j + 1) (by omega)
    have key : ∃ e, A.Runs c1 e ∧ (e.pc = 0x7bc ∧ e.s = c1.s ∧ e.mem = c1.mem) := by
      have hX1 : c1.x.toNat = 128 := by rw [x1]; exact hX'
      obtain ⟨a, x, y, s, n, z, cf, pc, m⟩ := c1
      simp only at hc1 p1 hX1 ⊢
      subst p1
      ins hc1.at_7b8
      rw [show isGe x.toNat (UInt8.toNat 128) = true from decide_eq_true (by show 128 ≤ x.toNat; omega)]
      nobr hc1.at_7ba, rfl
      exact ⟨_, .refl _, rfl, rfl, rfl⟩
    obtain ⟨c2, r2, p2, s2, m2⟩ := key
    have w30 : word (c2.mem 0x30a) (c2.mem 0x30b) = 4 + (j + 1) := by
      rw [m2, m1 _ (by omega) (by omega), m1 _ (by omega) (by omega), b3]; omega
    obtain ⟨c3, r3, p3, s3, n3, b3', -, m3⟩ := read_sio ha (by rw [m2]; exact hc1) (by rw [m2]; exact hd1) p2 (by rw [s2, s1]; exact hs) (d := d) (by rw [w30]; exact hd2)
    have keep3 : ∀ p, ¬ Scratch A p → c3.mem p = c1.mem p := by
      intro p hp
      rw [← m2]
      refine m3 p (fun h => hp (.inl h)) (fun h => hp (by unfold Scratch; omega)) (fun h => hp ?_)
      have := c2.s.toNat_lt
      unfold Scratch; omega
    have n30a : ¬ A.os 0x30a := ha.dcb _ (by omega) (by omega)
    have n30b : ¬ A.os 0x30b := ha.dcb _ (by omega) (by omega)
    have n709 : ¬ A.os 0x709 := ha.code _ (by omega) (by omega)
    have n70a : ¬ A.os 0x70a := ha.code _ (by omega) (by omega)
    have hs2' := c2.s.toNat_lt
    have w3 : word (c3.mem 0x30a) (c3.mem 0x30b) = 4 + (j + 1) := by
      rw [m3 _ n30a (by omega) (by omega), m3 _ n30b (by omega) (by omega), w30]
    obtain ⟨e, r4, e1, e2, e3, e4, e5, e6, e7⟩ := read_rest (A := A) (hc1.keep ha keep3) p3 n3 (by rw [w3]; omega)
    have keep4 : ∀ p, ¬ Scratch A p → e.mem p = c1.mem p := fun p hp =>
      (e7 p (fun h => hp (by unfold Scratch; omega)) (fun h => hp (by unfold Scratch; omega)) (fun h => hp (by unfold Scratch; omega))).trans (keep3 p hp)
    refine ⟨e, r1.trans (r2.trans (r3.trans r4)), ⟨hc1.keep ha keep4, hd1.keep ha keep4, e4, by omega,
      ?_, j + 1, ?_, ?_, ?_, ?_⟩, ?_, ?_, ?_, ?_⟩
    · rw [e7 _ (by omega) (by omega) (by omega), e7 _ (by omega) (by omega) (by omega), m3 _ n709 (by omega) (by omega), m3 _ n70a (by omega) (by omega), m2]
      exact k1
    · rw [e3]; show 1 + _ = _; omega
    · rw [e3]; show 1 ≤ 128; omega
    · rw [e6, w3]; omega
    · intro t ht
      rw [e7 _ (by omega) (by omega) (by omega), b3' t ht, hd3 t ht]
    · rw [e1]
      refine ret_pc (s3.trans (s2.trans s1)) (fun k h1 h2 => ?_) hs'
      rw [m3 k (ha.stack k (by omega) (by omega)) (by omega) (by rw [s2, s1]; omega), m2, m1 k (by omega) (by omega)]
    · rw [e2, s3, s2, s1]
    · rw [e5, show (0x100 : Nat) = 0x100 + 0 from rfl, b3' 0 (by omega), hd3 0 (by omega)]; congr 1; omega
    · exact fun p hp => (keep4 p hp).trans (keep1 p hp)

theorem word_ffff (a b : UInt8) : word a b = 0xffff ↔ a = 0xff ∧ b = 0xff := by
  unfold word
  have h1 := a.toNat_lt
  have h2 := b.toNat_lt
  rw [← UInt8.toNat_inj, ← UInt8.toNat_inj]
  show _ ↔ _ = 255 ∧ _ = 255
  omega

theorem and_ff (a b : UInt8) : (a &&& b) - 0xff = 0 ↔ b = 0xff ∧ a = 0xff := by
  constructor
  · intro h
    have h' : a &&& b = 0xff := by
      have : (a &&& b) - 0xff + 0xff = 0 + 0xff := by rw [h]
      simpa using this
    have e : a.toNat &&& b.toNat = 255 := by rw [← UInt8.toNat_and, h']; rfl
    have h1 := a.toNat_lt
    have h2 := b.toNat_lt
    have l1 : a.toNat &&& b.toNat ≤ a.toNat := Nat.and_le_left
    have l2 : a.toNat &&& b.toNat ≤ b.toNat := Nat.and_le_right
    refine ⟨UInt8.toNat_inj.mp ?_, UInt8.toNat_inj.mp ?_⟩
    · show _ = 255; omega
    · show _ = 255; omega
  · rintro ⟨rfl, rfl⟩; rfl

theorem loadSeg_congr {m m' : Nat → UInt8} {s : Seg} {p : Nat} (h : m p = m' p) : loadSeg m s p = loadSeg m' s p := by
  unfold loadSeg
  rw [h]

theorem loadSegs_congr {p : Nat} : ∀ (l : List Seg) {m m' : Nat → UInt8}, m p = m' p → loadSegs m l p = loadSegs m' l p
  | [], _, _, h => h
  | s :: l, _, _, h => loadSegs_congr l (loadSeg_congr (s := s) h)

/-- the memory the loader needs for itself: not available to the program being loaded -/
def LoaderMem (A : Atari) (p : Nat) : Prop :=
  Scratch A p ∨ (0x43 ≤ p ∧ p ≤ 0x46) ∨ (0x300 ≤ p ∧ p ≤ 0x30b) ∨ (0x706 ≤ p ∧ p ≤ 0x7e2)

theorem Ready.same {x : Bytes} {i : Nat} {c c' : Cpu} (h : Ready x i c) (hx : c'.x = c.x) (hy : c'.y = c.y)
    (hm : ∀ p, (0x100 ≤ p ∧ p ≤ 0x17f) ∨ (0x300 ≤ p ∧ p ≤ 0x30b) ∨ (0x706 ≤ p ∧ p ≤ 0x7e2) → c'.mem p = c.mem p) :
    Ready x i c' := by
  obtain ⟨j, b1, b2, b3, b4⟩ := h.buffer
  refine ⟨fun p h1 h2 h3 h4 => (hm p (by omega)).trans (h.code p h1 h2 h3 h4), ?_, hy.trans h.y, h.le, ?_, j, ?_, ?_, ?_, ?_⟩
  · have d := h.dcb
    exact ⟨(hm _ (by omega)).trans d.device, (hm _ (by omega)).trans d.unit, (hm _ (by omega)).trans d.command, (hm _ (by omega)).trans d.bufLo,
      (hm _ (by omega)).trans d.bufHi, (hm _ (by omega)).trans d.lenLo, (hm _ (by omega)).trans d.lenHi⟩
  · rw [hm _ (by omega), hm _ (by omega)]; exact h.count
  · rw [hx]; exact b1
  · rw [hx]; exact b2
  · rw [hm _ (by omega), hm _ (by omega)]; exact b3
  · intro t ht; rw [hm _ (by omega)]; exact b4 t ht

theorem word_ofNat {n : Nat} (h : n < 0x10000) : word (UInt8.ofNat n) (UInt8.ofNat (n / 256)) = n := by
  unfold word
  rw [toNat_ofNat, toNat_ofNat]
  omega

/-- a call of a routine of the loader: the state in it, and where it will return to -/
theorem call_state {A : Atari} {c : Cpu} {t : Nat} (hd : decode6502 c.mem c.pc = some (.jsr t, 3)) (hpc : c.pc < 0x8000) (hs : 0x84 ≤ c.s.toNat) {P : Cpu → Prop}
    (h : ∀ d : Cpu, d.pc = t → d.s.toNat + 2 = c.s.toNat → d.s + 2 = c.s → d.x = c.x → d.y = c.y → d.ret.pc = c.pc + 3 →
      (∀ p, ¬ (0x180 ≤ p ∧ p ≤ 0x1ff) → d.mem p = c.mem p) → ∃ e, A.Runs d e ∧ P e) : ∃ e, A.Runs c e ∧ P e := by
  refine runs1 hd (by omega) ?_
  rw [exec_jsr _ _ (by show 1 ≤ c.s.toNat; omega)]
  have hslt := c.s.toNat_lt
  have hs2 : (c.s - 1 - 1).toNat = c.s.toNat - 2 := by rw [u8_sub1 (by rw [u8_sub1 (by omega)]; omega), u8_sub1 (by omega)]; omega
  have hp1 : (c.s - 1 - 1 + 1).toNat = c.s.toNat - 1 := by rw [u8_add 1 (by rw [hs2]; show _ + 1 < 256; omega), hs2]; show _ + 1 = _; omega
  have hp2 : (c.s - 1 - 1 + 2).toNat = c.s.toNat := by rw [u8_add 2 (by rw [hs2]; show _ + 2 < 256; omega), hs2]; show _ + 2 = _; omega
  refine h _ rfl ?_ (UInt8.toNat_inj.mp hp2) rfl rfl ?_ ?_
  · show (c.s - 1 - 1).toNat + 2 = _; omega
  · simp only [Cpu.ret, hp1, hp2]
    rw [poke_same, poke_ne _ _ (by omega), poke_same, word_ofNat (by omega)]
    omega
  · intro p hp
    simp only
    rw [poke_ne _ _ (by omega), poke_ne _ _ (by omega)]

/-- calling the routine at 0x7a5 -/
theorem call_get {A : Atari} (ha : Apart A) {x : Bytes} (hx : OnDisk A x) (hlen : x.length < 0x10000) {i : Nat} {c : Cpu} (hr : Ready x i c) (hi : i < x.length)
    (hd : decode6502 c.mem c.pc = some (.jsr 0x7a5, 3)) (hpc : c.pc < 0x8000) (hs : 0x84 ≤ c.s.toNat) :
    ∃ e, A.Runs c e ∧ Ready x (i + 1) e ∧ e.pc = c.pc + 3 ∧ e.s = c.s ∧ e.a = x.getD i 0 ∧ ∀ p, ¬ Scratch A p → e.mem p = c.mem p := by
  refine call_state hd hpc hs ?_
  intro d h1 h2 h3 h4 h5 h6 h7
  have hslt := c.s.toNat_lt
  obtain ⟨e, g1, g2, g3, g4, g5, g6⟩ := get_byte ha hx hlen (hr.same h4 h5 fun p hp => h7 p (by omega)) hi h1 (by omega) (by omega)
  refine ⟨e, g1, g2, g3.trans h6, g4.trans h3, g5, fun p hp => (g6 p hp).trans (h7 p fun h => hp ?_)⟩
  unfold Scratch; omega

/-- calling it when no byte is left starts the program -/
theorem call_finish {A : Atari} {x : Bytes} {i : Nat} {c : Cpu} (hr : Ready x i c) (hi : i = x.length)
    (hd : decode6502 c.mem c.pc = some (.jsr 0x7a5, 3)) (hpc : c.pc < 0x8000) (hs : 0x84 ≤ c.s.toNat) :
    ∃ e, A.Runs c e ∧ e.pc = word (c.mem 0x2e0) (c.mem 0x2e1) ∧ ∀ p, ¬ Scratch A p → e.mem p = c.mem p := by
  refine call_state hd hpc hs ?_
  intro d h1 h2 h3 h4 h5 h6 h7
  have hr' := hr.same h4 h5 fun p hp => h7 p (by omega)
  obtain ⟨e, g1, g2, g3⟩ := finish_block (A := A) hr'.code h1 (by rw [hr'.count]; omega)
  refine ⟨e, g1, ?_, fun p hp => ?_⟩
  · rw [g2, h7 _ (by omega), h7 _ (by omega)]
  · rw [g3]
    refine h7 p fun h => hp ?_
    unfold Scratch; omega

/-- storing one byte and comparing the pointer with the end: from 0x777 -/
theorem store_block {A : Atari} {c : Cpu} (hc : Code c.mem) (hpc : c.pc = 0x777) (hy : c.y = 0) {o : Nat} (ho : word (c.mem 0x43) (c.mem 0x44) = o)
    (hmax : o < 0x10000) (hres : ¬ (0x43 ≤ o ∧ o ≤ 0x46)) (hcode : ¬ (0x706 ≤ o ∧ o ≤ 0x7e2)) :
    ∃ e, A.Runs c e ∧ e.pc = (if (o + 1) % 0x10000 ≤ word (c.mem 0x45) (c.mem 0x46) then 0x774 else 0x789) ∧ e.s = c.s ∧ e.x = c.x ∧ e.y = c.y ∧
      word (e.mem 0x43) (e.mem 0x44) = (o + 1) % 0x10000 ∧ e.mem o = c.a ∧ ∀ p, p ≠ o → p ≠ 0x43 → p ≠ 0x44 → e.mem p = c.mem p := by
  obtain ⟨a, x, y, s, n, z, cf, pc, m⟩ := c
  simp only at hc hpc hy ho ⊢
  subst hpc
  subst hy
  have haddr : (word (m 0x43) (m ((0x43 + 1) % 256)) + (0 : UInt8).toNat) % 0x10000 = o := by
    show (word (m 0x43) (m 0x44) + 0) % 0x10000 = o
    rw [ho]; omega
  refine runs1 hc.at_777 (by simp) ?_
  simp only [Cpu.exec, Cpu.addr, Cpu.reg, haddr, Nat.reduceAdd, Nat.reduceMod]
  have hc1 : Code (poke m o a) := hc.poke (by omega)
  ins hc1.at_779
  rw [poke_ne _ _ (show 0x43 ≠ o by omega)]
  have hc2 : Code (poke (poke m o a) 0x43 (m 0x43 + 1)) := hc1.poke (by omega)
  obtain ⟨w1, w2⟩ := word_inc_mod (lo := m 0x43) (hi := m 0x44)
  rw [ho] at w1 w2
  -- the comparison, for any memory
  have tail : ∀ (m' : Nat → UInt8) (n z cf : Bool), Code m' → word (m' 0x43) (m' 0x44) = (o + 1) % 0x10000 → m' o = a → (∀ p, p ≠ o → p ≠ 0x43 → p ≠ 0x44 → m' p = m p) →
      ∃ e, A.Runs ⟨a, x, 0, s, n, z, cf, 0x77f, m'⟩ e ∧ e.pc = (if (o + 1) % 0x10000 ≤ word (m 0x45) (m 0x46) then 0x774 else 0x789) ∧ e.s = s ∧ e.x = x ∧ e.y = 0 ∧
        word (e.mem 0x43) (e.mem 0x44) = (o + 1) % 0x10000 ∧ e.mem o = a ∧ ∀ p, p ≠ o → p ≠ 0x43 → p ≠ 0x44 → e.mem p = m p := by
    intro m' n z cf hc' hw ha' hm
    rw [← hm 0x45 (by omega) (by omega) (by omega), ← hm 0x46 (by omega) (by omega) (by omega)]
    ins hc'.at_77f
    ins hc'.at_781
    ins hc'.at_783
    ins hc'.at_785
    have hcarry : isGe (m' 0x46).toNat ((m' 0x44).toNat + (if isGe (m' 0x45).toNat (m' 0x43).toNat = true then 0 else 1)) =
        decide ((o + 1) % 0x10000 ≤ word (m' 0x45) (m' 0x46)) := by
      unfold isGe
      rw [← hw]
      unfold word
      have := (m' 0x43).toNat_lt
      have := (m' 0x45).toNat_lt
      by_cases h : (m' 0x43).toNat ≤ (m' 0x45).toNat
      · rw [if_pos (by simpa using h)]
        refine decide_eq_decide.mpr ?_
        omega
      · rw [if_neg (by simpa using h)]
        refine decide_eq_decide.mpr ?_
        omega
    rw [hcarry]
    by_cases hle : (o + 1) % 0x10000 ≤ word (m' 0x45) (m' 0x46)
    · br hc'.at_787, (decide_eq_true hle)
      exact ⟨_, .refl _, (if_pos hle).symm, rfl, rfl, rfl, hw, ha', hm⟩
    · nobr hc'.at_787, (decide_eq_false hle)
      exact ⟨_, .refl _, (if_neg hle).symm, rfl, rfl, rfl, hw, ha', hm⟩
  cases hz : isZero (m 0x43 + 1) with
  | false =>
    br hc2.at_77b, rfl
    refine tail _ _ _ _ hc2 ?_ ?_ ?_
    · rw [poke_same, poke_ne _ _ (by omega), poke_ne _ _ (by omega)]; exact w1 hz
    · rw [poke_ne _ _ (by omega), poke_same]
    · intro p h1 h2 h3; rw [poke_ne _ _ h2, poke_ne _ _ h1]
  | true =>
    nobr hc2.at_77b, rfl
    ins hc2.at_77d
    refine tail _ _ _ _ (hc2.poke (by omega)) ?_ ?_ ?_
    · rw [poke_same, poke_ne _ _ (by omega), poke_same, poke_ne _ _ (by omega), poke_ne _ _ (by omega)]; exact w2 hz
    · rw [poke_ne _ _ (by omega), poke_ne _ _ (by omega), poke_same]
    · intro p h1 h2 h3; rw [poke_ne _ _ h3, poke_ne _ _ h2, poke_ne _ _ h1]

theorem or_zero {a b : UInt8} (h : a ||| b = 0) : a = 0 ∧ b = 0 := by
  have h' : (a ||| b).toNat = 0 := by rw [h]; rfl
  rw [UInt8.toNat_or, Nat.or_eq_zero_iff] at h'
  exact ⟨UInt8.toNat_inj.mp h'.1, UInt8.toNat_inj.mp h'.2⟩

/-- after a segment: no init address, so the next one follows -/
theorem next_block {A : Atari} {c : Cpu} (hc : Code c.mem) (hpc : c.pc = 0x789) (hi : c.mem 0x2e2 = 0 ∧ c.mem 0x2e3 = 0) :
    ∃ e, A.Runs c e ∧ e.pc = 0x75a ∧ e.s = c.s ∧ e.x = c.x ∧ e.y = c.y ∧ e.mem = c.mem := by
  obtain ⟨a, x, y, s, n, z, cf, pc, m⟩ := c
  simp only at hc hpc hi ⊢
  subst hpc
  ins hc.at_789
  ins hc.at_78c
  rw [hi.1, hi.2]
  br hc.at_78f, rfl
  exact ⟨_, .refl _, rfl, rfl, rfl, rfl, rfl⟩

theorem not_loaderMem {A : Atari} {p : Nat} (h : ¬ LoaderMem A p) : ¬ Scratch A p ∧ ¬ (0x43 ≤ p ∧ p ≤ 0x46) ∧
    ¬ (0x300 ≤ p ∧ p ≤ 0x30b) ∧ ¬ (0x706 ≤ p ∧ p ≤ 0x7e2) :=
  ⟨fun h' => h (.inl h'), fun h' => h (.inr (.inl h')), fun h' => h (.inr (.inr (.inl h'))), fun h' => h (.inr (.inr (.inr h')))⟩

theorem not_scratch_page0 {A : Atari} (ha : Apart A) {p : Nat} (h1 : 0x43 ≤ p) (h2 : p ≤ 0x46) : ¬ Scratch A p := by
  rintro (h | h)
  · exact ha.page0 p h1 h2 h
  · omega

/-- **the inner loop** loads the bytes of a segment -/
theorem seg_loop {A : Atari} (ha : Apart A) {x : Bytes} (hx : OnDisk A x) (hlen : x.length < 0x10000) : ∀ (d : Bytes), d ≠ [] → ∀ (o i : Nat) (c : Cpu), Ready x i c → c.pc = 0x774 →
    word (c.mem 0x43) (c.mem 0x44) = o → word (c.mem 0x45) (c.mem 0x46) + 1 = o + d.length → o + d.length < 0x10000 →
    (∀ t < d.length, x.getD (i + t) 0 = d.getD t 0) → i + d.length ≤ x.length → (∀ t < d.length, ¬ LoaderMem A (o + t)) → 0x84 ≤ c.s.toNat →
    ∃ e, A.Runs c e ∧ Ready x (i + d.length) e ∧ e.pc = 0x789 ∧ e.s = c.s ∧ ∀ p, ¬ LoaderMem A p → e.mem p = loadSeg c.mem ⟨o, d⟩ p
  | [], h => absurd rfl h
  | b :: d, _ => by
    intro o i c hr hpc ho he hmax hd hi hres hs
    simp only [List.length_cons] at he hmax hd hi hres
    obtain ⟨c1, r1, q1, p1, s1, a1, m1⟩ := call_get ha hx hlen hr (by omega) (by rw [hpc]; exact hr.code.at_774) (by omega) hs
    obtain ⟨n1, n2, n3, n6⟩ := not_loaderMem (show ¬ LoaderMem A o from hres 0 (by omega))
    obtain ⟨c2, r2, p2, s2, x2, y2, w2, o2, m2⟩ := store_block (A := A) q1.code (p1.trans (by omega)) q1.y
      (by rw [m1 _ (not_scratch_page0 ha (by omega) (by omega)), m1 _ (not_scratch_page0 ha (by omega) (by omega))]; exact ho) (by omega) n2 n6
    rw [m1 _ (not_scratch_page0 ha (p := 0x45) (by omega) (by omega)), m1 _ (not_scratch_page0 ha (p := 0x46) (by omega) (by omega)), Nat.mod_eq_of_lt (by omega)] at p2
    rw [Nat.mod_eq_of_lt (by omega)] at w2
    have notstack : ¬ (0x100 ≤ o ∧ o ≤ 0x1ff) := fun h => n1 (by unfold Scratch; omega)
    have q2 : Ready x (i + 1) c2 := q1.same x2 y2 fun p hp => m2 p (by omega) (by omega) (by omega)
    have hb : c2.mem o = b := by
      rw [o2, a1]; exact hd 0 (by omega)
    have keep : ∀ p, ¬ LoaderMem A p → p ≠ o → c2.mem p = c.mem p := by
      intro p hp hne
      obtain ⟨k1, k2, -⟩ := not_loaderMem hp
      rw [m2 p hne (by omega) (by omega), m1 p k1]
    by_cases hnil : d = []
    · subst hnil
      simp only [List.length_nil] at he p2
      rw [if_neg (by omega)] at p2
      refine ⟨c2, r1.trans r2, q2, p2, s2.trans s1, fun p hp => ?_⟩
      unfold loadSeg
      by_cases hpo : p = o
      · subst hpo
        rw [if_pos (by simp), hb]; simp
      · rw [if_neg (by simp only [List.length_cons, List.length_nil]; omega)]; exact keep p hp hpo
    · have hpos : 0 < d.length := List.length_pos_iff.mpr hnil
      rw [if_pos (by omega)] at p2
      obtain ⟨e, r3, q3, p3, s3, m3⟩ := seg_loop ha hx hlen d hnil (o + 1) (i + 1) c2 q2 p2 w2 (by
          rw [m2 _ (by omega) (by omega) (by omega), m2 _ (by omega) (by omega) (by omega), m1 _ (not_scratch_page0 ha (by omega) (by omega)),
            m1 _ (not_scratch_page0 ha (by omega) (by omega)), he]; omega) (by omega)
        (fun t ht => by have := hd (t + 1) (by omega); rw [show i + 1 + t = i + (t + 1) by omega, this]; simp) (by omega)
        (fun t ht => by have := hres (t + 1) (by omega); rwa [show o + 1 + t = o + (t + 1) by omega]) (by rw [s2, s1]; exact hs)
      refine ⟨e, r1.trans (r2.trans r3), by rw [List.length_cons, show i + (d.length + 1) = i + 1 + d.length by omega]; exact q3, p3, s3.trans (s2.trans s1), fun p hp => ?_⟩
      rw [m3 p hp]
      unfold loadSeg
      simp only [List.length_cons]
      by_cases hpo : p = o
      · subst hpo
        rw [if_neg (by omega), if_pos (by omega), hb]; simp
      · by_cases hin : o + 1 ≤ p ∧ p < o + 1 + d.length
        · rw [if_pos hin, if_pos (by omega), show p - o = (p - (o + 1)) + 1 by omega]; simp
        · rw [if_neg hin, if_neg (by omega)]; exact keep p hp hpo

/-- storing a byte just read into one of the bytes 0x43 to 0x46 -/
theorem Ready.store {x : Bytes} {i : Nat} {c : Cpu} (h : Ready x i c) {p q : Nat} (hp : 0x43 ≤ p ∧ p ≤ 0x46) {v : UInt8} {n z cf : Bool} {a : UInt8} :
    Ready x i ⟨a, c.x, c.y, c.s, n, z, cf, q, poke c.mem p v⟩ :=
  h.same rfl rfl fun k hk => poke_ne _ _ (by omega)

/-- reading two bytes at 0x75a; where it goes on depends on whether they are a marker -/
theorem head_block {A : Atari} (ha : Apart A) {x : Bytes} (hx : OnDisk A x) (hlen : x.length < 0x10000) {i : Nat} {c : Cpu} (hr : Ready x i c) (hi : i + 2 ≤ x.length)
    (hpc : c.pc = 0x75a) (hs : 0x84 ≤ c.s.toNat) :
    ∃ e, A.Runs c e ∧ Ready x (i + 2) e ∧ e.pc = (if word (x.getD i 0) (x.getD (i + 1) 0) = 0xffff then 0x75a else 0x76a) ∧ e.s = c.s ∧
      word (e.mem 0x43) (e.mem 0x44) = word (x.getD i 0) (x.getD (i + 1) 0) ∧ ∀ p, ¬ LoaderMem A p → e.mem p = c.mem p := by
  obtain ⟨c1, r1, q1, p1, s1, a1, m1⟩ := call_get ha hx hlen hr (by omega) (by rw [hpc]; exact hr.code.at_75a) (by omega) hs
  rw [hpc] at p1
  have k1 : ∃ e, A.Runs c1 e ∧ (Ready x (i + 1) e ∧ e.pc = 0x75f ∧ e.s = c1.s ∧ e.mem = poke c1.mem 0x43 c1.a) := by
    have hc := q1.code
    have hq := q1.store (p := 0x43) (q := 0x75f) (v := c1.a) (n := c1.n) (z := c1.z) (cf := c1.c) (a := c1.a) (by omega)
    obtain ⟨a, x, y, s, n, z, cf, pc, m⟩ := c1
    simp only at hc p1 ⊢
    subst p1
    ins hc.at_75d
    exact ⟨_, .refl _, hq, rfl, rfl, rfl⟩
  obtain ⟨c2, r2, q2, p2, s2, m2⟩ := k1
  obtain ⟨c3, r3, q3, p3, s3, a3, m3⟩ := call_get ha hx hlen q2 (by omega) (by rw [p2]; exact q2.code.at_75f) (by omega) (by rw [s2, s1]; exact hs)
  rw [p2] at p3
  have h43 : c3.mem 0x43 = x.getD i 0 := by rw [m3 _ (not_scratch_page0 ha (by omega) (by omega)), m2, poke_same, a1]
  have k2 : ∃ e, A.Runs c3 e ∧ (Ready x (i + 1 + 1) e ∧ e.pc = (if word (x.getD i 0) (x.getD (i + 1) 0) = 0xffff then 0x75a else 0x76a) ∧ e.s = c3.s ∧
      e.mem = poke c3.mem 0x44 c3.a) := by
    have hc := q3.code
    have hq : ∀ q n z cf a, _ := fun q n z cf a => q3.store (p := 0x44) (q := q) (v := c3.a) (n := n) (z := z) (cf := cf) (a := a) (by omega)
    rw [← h43, ← a3]
    clear r1 r2 r3 q1 q2 q3 m1 m2 m3 a1 s1 s2 s3 p1 p2 a3 h43
    obtain ⟨a, x', y, s, n, z, cf, pc, m⟩ := c3
    simp only at hc p3 hq ⊢
    subst p3
    ins hc.at_762
    have hc1 : Code (poke m 0x44 a) := hc.poke (by omega)
    ins hc1.at_764
    rw [poke_ne _ _ (show 0x43 ≠ 0x44 by omega)]
    ins hc1.at_766
    have hff : isZero ((a &&& m 0x43) - 0xff) = decide (word (m 0x43) a = 0xffff) := by
      unfold isZero
      refine decide_eq_decide.mpr ?_
      rw [word_ffff]
      exact and_ff a (m 0x43)
    rw [hff]
    by_cases h : word (m 0x43) a = 0xffff
    · br hc1.at_768, (decide_eq_true h)
      exact ⟨_, .refl _, hq _ _ _ _ _, (if_pos h).symm, rfl, rfl⟩
    · nobr hc1.at_768, (decide_eq_false h)
      exact ⟨_, .refl _, hq _ _ _ _ _, (if_neg h).symm, rfl, rfl⟩
  obtain ⟨c4, r4, q4, p4, s4, m4⟩ := k2
  refine ⟨c4, r1.trans (r2.trans (r3.trans r4)), q4, p4, s4.trans (s3.trans (s2.trans s1)), ?_, fun p hp => ?_⟩
  · rw [m4, poke_same, poke_ne _ _ (by omega), h43, a3]
  · obtain ⟨g1, g2, -⟩ := not_loaderMem hp
    rw [m4, poke_ne _ _ (by omega), m3 _ g1, m2, poke_ne _ _ (by omega), m1 _ g1]

/-- reading the end address -/
theorem end_block {A : Atari} (ha : Apart A) {x : Bytes} (hx : OnDisk A x) (hlen : x.length < 0x10000) {i : Nat} {c : Cpu} (hr : Ready x i c) (hi : i + 2 ≤ x.length)
    (hpc : c.pc = 0x76a) (hs : 0x84 ≤ c.s.toNat) :
    ∃ e, A.Runs c e ∧ Ready x (i + 2) e ∧ e.pc = 0x774 ∧ e.s = c.s ∧ word (e.mem 0x43) (e.mem 0x44) = word (c.mem 0x43) (c.mem 0x44) ∧
      word (e.mem 0x45) (e.mem 0x46) = word (x.getD i 0) (x.getD (i + 1) 0) ∧ ∀ p, ¬ LoaderMem A p → e.mem p = c.mem p := by
  obtain ⟨c1, r1, q1, p1, s1, a1, m1⟩ := call_get ha hx hlen hr (by omega) (by rw [hpc]; exact hr.code.at_76a) (by omega) hs
  rw [hpc] at p1
  have k1 : ∃ e, A.Runs c1 e ∧ (Ready x (i + 1) e ∧ e.pc = 0x76f ∧ e.s = c1.s ∧ e.mem = poke c1.mem 0x45 c1.a) := by
    have hc := q1.code
    have hq := q1.store (p := 0x45) (q := 0x76f) (v := c1.a) (n := c1.n) (z := c1.z) (cf := c1.c) (a := c1.a) (by omega)
    obtain ⟨a, x, y, s, n, z, cf, pc, m⟩ := c1
    simp only at hc p1 ⊢
    subst p1
    ins hc.at_76d
    exact ⟨_, .refl _, hq, rfl, rfl, rfl⟩
  obtain ⟨c2, r2, q2, p2, s2, m2⟩ := k1
  obtain ⟨c3, r3, q3, p3, s3, a3, m3⟩ := call_get ha hx hlen q2 (by omega) (by rw [p2]; exact q2.code.at_76f) (by omega) (by rw [s2, s1]; exact hs)
  rw [p2] at p3
  have k2 : ∃ e, A.Runs c3 e ∧ (Ready x (i + 1 + 1) e ∧ e.pc = 0x774 ∧ e.s = c3.s ∧ e.mem = poke c3.mem 0x46 c3.a) := by
    have hc := q3.code
    have hq := q3.store (p := 0x46) (q := 0x774) (v := c3.a) (n := c3.n) (z := c3.z) (cf := c3.c) (a := c3.a) (by omega)
    obtain ⟨a, x, y, s, n, z, cf, pc, m⟩ := c3
    simp only at hc p3 ⊢
    subst p3
    ins hc.at_772
    exact ⟨_, .refl _, hq, rfl, rfl, rfl⟩
  obtain ⟨c4, r4, q4, p4, s4, m4⟩ := k2
  have z : ∀ p, 0x43 ≤ p → p ≤ 0x46 → ¬ Scratch A p := fun p h1 h2 => not_scratch_page0 ha h1 h2
  refine ⟨c4, r1.trans (r2.trans (r3.trans r4)), q4, p4, s4.trans (s3.trans (s2.trans s1)), ?_, ?_, fun p hp => ?_⟩
  · rw [m4, poke_ne _ _ (by omega), poke_ne _ _ (by omega), m3 _ (z _ (by omega) (by omega)), m3 _ (z _ (by omega) (by omega)), m2, poke_ne _ _ (by omega), poke_ne _ _ (by omega),
      m1 _ (z _ (by omega) (by omega)), m1 _ (z _ (by omega) (by omega))]
  · rw [m4, poke_same, poke_ne _ _ (by omega), m3 _ (z _ (by omega) (by omega)), m2, poke_same, a1, a3]
  · obtain ⟨g1, g2, -⟩ := not_loaderMem hp
    rw [m4, poke_ne _ _ (by omega), m3 _ g1, m2, poke_ne _ _ (by omega), m1 _ g1]

/-- a segment the loader can load -/
structure Loadable (A : Atari) (s : Seg) : Prop where
  ne : s.data ≠ []
  fits : s.origin + s.data.length < 0x10000
  clear : ∀ p, s.origin ≤ p → p < s.origin + s.data.length → ¬ LoaderMem A p

/-- one segment of the executable: from the markers to the code that looks at the init address -/
theorem one_seg {A : Atari} (ha : Apart A) {x : Bytes} (hx : OnDisk A x) (hlen : x.length < 0x10000) {s : Seg} {rest : Bytes} (hl : Loadable A s)
    {i : Nat} {c : Cpu} (hr : Ready x i c) (hd : x.drop i = xexPiece s ++ rest) (hpc : c.pc = 0x75a) (hs : 0x84 ≤ c.s.toNat) :
    ∃ e, A.Runs c e ∧ Ready x (i + (xexPiece s).length) e ∧ x.drop (i + (xexPiece s).length) = rest ∧ e.pc = 0x789 ∧ e.s = c.s ∧
      ∀ p, ¬ LoaderMem A p → e.mem p = loadSeg c.mem s p := by
  obtain ⟨w1, w2, w3⟩ := hl
  have hpos : 0 < s.data.length := List.length_pos_iff.mpr w1
  have hle := hr.le
  have hln : x.length - i = (4 + s.data.length) + rest.length := by
    have := congrArg List.length hd
    rw [List.length_drop, List.length_append] at this
    rw [this]; simp [xexPiece, enc16]; omega
  have hget : ∀ t, x.getD (i + t) 0 = (xexPiece s ++ rest).getD t 0 := by
    intro t; rw [← hd]; simp [List.getD_eq_getElem?_getD, List.getElem?_drop]
  have hpiece : xexPiece s ++ rest = UInt8.ofNat s.origin :: UInt8.ofNat (s.origin / 256) :: UInt8.ofNat (s.origin + s.data.length + 65535) ::
      UInt8.ofNat ((s.origin + s.data.length + 65535) / 256) :: (s.data ++ rest) := by
    simp [xexPiece, enc16]
  have g0 : x.getD i 0 = UInt8.ofNat s.origin := by have := hget 0; rw [hpiece] at this; exact this
  have g1 : x.getD (i + 1) 0 = UInt8.ofNat (s.origin / 256) := by rw [hget 1, hpiece]; rfl
  have g2 : x.getD (i + 2) 0 = UInt8.ofNat (s.origin + s.data.length + 65535) := by rw [hget 2, hpiece]; rfl
  have g3 : x.getD (i + 2 + 1) 0 = UInt8.ofNat ((s.origin + s.data.length + 65535) / 256) := by rw [show i + 2 + 1 = i + 3 by omega, hget 3, hpiece]; rfl
  have gd : ∀ t < s.data.length, x.getD (i + 2 + 2 + t) 0 = s.data.getD t 0 := by
    intro t ht
    rw [show i + 2 + 2 + t = i + (t + 4) by omega, hget, hpiece]
    simp only [List.getD_cons_succ]
    rw [List.getD_eq_getElem?_getD, List.getElem?_append_left ht, List.getD_eq_getElem?_getD]
  have wend : word (UInt8.ofNat (s.origin + s.data.length + 65535)) (UInt8.ofNat ((s.origin + s.data.length + 65535) / 256)) + 1 = s.origin + s.data.length := by
    unfold word; rw [toNat_ofNat, toNat_ofNat]; omega
  obtain ⟨c1, r1, q1, p1, s1, v1, m1⟩ := head_block ha hx hlen hr (by omega) hpc hs
  rw [g0, g1, word_ofNat (by omega)] at p1 v1
  rw [if_neg (by omega)] at p1
  obtain ⟨c2, r2, q2, p2, s2, v2, u2, m2⟩ := end_block ha hx hlen q1 (by omega) p1 (by rw [s1]; exact hs)
  rw [g2, g3] at u2
  obtain ⟨c3, r3, q3, p3, s3, m3⟩ := seg_loop ha hx hlen s.data w1 s.origin (i + 2 + 2) c2 q2 p2 (v2.trans v1) (by rw [u2]; exact wend) w2 gd (by omega)
    (fun t ht => w3 _ (by omega) (by omega)) (by rw [s2, s1]; exact hs)
  have hi : i + 2 + 2 + s.data.length = i + (xexPiece s).length := by simp [xexPiece, enc16]; omega
  rw [hi] at q3
  refine ⟨c3, r1.trans (r2.trans r3), q3, ?_, p3, s3.trans (s2.trans s1), fun p hp => ?_⟩
  · rw [← List.drop_drop, hd, List.drop_left]
  · rw [m3 p hp]
    refine loadSeg_congr ?_
    rw [m2 p hp, m1 p hp]

/-- the memory in which the program finds what was loaded: what the loader does not need for itself.  Calling init routines needs one
byte more. -/
def Free (A : Atari) (inits : Prop) (p : Nat) : Prop := ¬ LoaderMem A p ∧ (p = 0x19 → ¬ inits)

/-- what an init routine must leave alone: the place where the loader keeps its position, the sector buffer, the device control block and
the loader -/
def MustKeep (p : Nat) : Prop := p = 0x19 ∨ (0x100 ≤ p ∧ p ≤ 0x17f) ∨ (0x300 ≤ p ∧ p ≤ 0x30b) ∨ (0x706 ≤ p ∧ p ≤ 0x7e2)

/-- The init routine whose address is in 0x2e2, called as a subroutine with `m` in memory, returns and leaves `m'` in memory. -/
def InitReturns (A : Atari) (m m' : Nat → UInt8) : Prop :=
  ∀ c : Cpu, c.pc = word (m 0x2e2) (m 0x2e3) → 0x82 ≤ c.s.toNat → c.s.toNat ≤ 0xfd → (∀ p, Free A True p → c.mem p = m p) →
    ∃ e, A.Runs c e ∧ e.pc = c.ret.pc ∧ e.s = c.s + 2 ∧ (∀ p, MustKeep p → e.mem p = c.mem p) ∧ ∀ p, Free A True p → e.mem p = m' p

/-- Loading an executable: the segments go into memory one after the other; after each one, if an address is now in 0x2e2, the routine
there is called and the address is cleared. -/
inductive Loads (A : Atari) (inits : Prop) : (Nat → UInt8) → List Seg → (Nat → UInt8) → Prop
  | nil (m : Nat → UInt8) : Loads A inits m [] m
  | plain {m m' : Nat → UInt8} {s : Seg} {l : List Seg} (h : loadSeg m s 0x2e2 = 0 ∧ loadSeg m s 0x2e3 = 0) (hl : Loads A inits (loadSeg m s) l m') :
    Loads A inits m (s :: l) m'
  | init {m m1 m' : Nat → UInt8} {s : Seg} {l : List Seg} (hi : inits) (h : ¬ (loadSeg m s 0x2e2 = 0 ∧ loadSeg m s 0x2e3 = 0))
    (hr : InitReturns A (loadSeg m s) m1) (hl : Loads A inits (poke (poke m1 0x2e2 0) 0x2e3 0) l m') : Loads A inits m (s :: l) m'

theorem not_scratch_vector {A : Atari} (ha : Apart A) {p : Nat} (h1 : 0x2e0 ≤ p) (h2 : p ≤ 0x2e3) : ¬ Scratch A p := by
  rintro (h | h)
  · exact ha.vectors p h1 h2 h
  · omega

theorem free_vector {A : Atari} (ha : Apart A) {b : Prop} {p : Nat} (h1 : 0x2e0 ≤ p) (h2 : p ≤ 0x2e3) : Free A b p := by
  refine ⟨?_, by omega⟩
  rintro (h | h)
  · exact not_scratch_vector ha h1 h2 h
  · omega

/-- calling the init routine: from 0x789 to the start of the routine -/
theorem to_init {A : Atari} {x : Bytes} {i : Nat} {c : Cpu} (hr : Ready x i c) (hpc : c.pc = 0x789) (hs : 0x84 ≤ c.s.toNat)
    (hi : ¬ (c.mem 0x2e2 = 0 ∧ c.mem 0x2e3 = 0)) :
    ∃ e, A.Runs c e ∧ e.pc = word (c.mem 0x2e2) (c.mem 0x2e3) ∧ e.s.toNat + 2 = c.s.toNat ∧ e.s + 2 = c.s ∧ e.ret.pc = 0x796 ∧ e.mem 0x19 = c.x ∧
      ∀ p, p ≠ 0x19 → ¬ (0x180 ≤ p ∧ p ≤ 0x1ff) → e.mem p = c.mem p := by
  have hc := hr.code
  obtain ⟨a, x', y, s, n, z, cf, pc, m⟩ := c
  simp only at hc hpc hi hs ⊢
  subst hpc
  ins hc.at_789
  ins hc.at_78c
  have hz : isZero (m 0x2e2 ||| m 0x2e3) = false := by
    unfold isZero
    refine decide_eq_false fun h => hi ?_
    exact or_zero h
  rw [hz]
  nobr hc.at_78f, rfl
  ins hc.at_791
  have hc1 : Code (poke m 0x19 x') := hc.poke (by omega)
  refine call_state hc1.at_793 (by simp) hs ?_
  intro d h1 h2 h3 h4 h5 h6 h7
  have hd : Code d.mem := fun p g1 g2 g3 g4 => (h7 p (by omega)).trans (hc1 p g1 g2 g3 g4)
  simp only at h2 h3 h6 h7
  obtain ⟨a2, x2, y2, s2, n2, z2, cf2, pc2, m2⟩ := d
  simp only at hd h1 h2 h3 h7 h6 ⊢
  subst h1
  have h6' : ∀ q, (⟨a2, x2, y2, s2, n2, z2, cf2, q, m2⟩ : Cpu).ret.pc = 0x796 := fun q => h6
  have e1 : m2 0x2e2 = m 0x2e2 := (h7 _ (by omega)).trans (poke_ne _ _ (by omega))
  have e2 : m2 0x2e3 = m 0x2e3 := (h7 _ (by omega)).trans (poke_ne _ _ (by omega))
  ins hd.at_7a2
  refine ⟨_, .refl _, by rw [← e1, ← e2], h2, h3, h6' _, (h7 _ (by omega)).trans (poke_same ..), fun p g1 g2 => (h7 p g2).trans (poke_ne _ _ g1)⟩

/-- back from the init routine: the address is cleared -/
theorem from_init {A : Atari} {c : Cpu} (hc : Code c.mem) (hpc : c.pc = 0x796) :
    ∃ e, A.Runs c e ∧ e.pc = 0x75a ∧ e.s = c.s ∧ e.x = c.mem 0x19 ∧ e.y = 0 ∧ e.mem = poke (poke c.mem 0x2e2 0) 0x2e3 0 := by
  obtain ⟨a, x', y, s, n, z, cf, pc, m⟩ := c
  simp only at hc hpc ⊢
  subst hpc
  ins hc.at_796
  ins hc.at_798
  ins hc.at_79a
  have hc1 : Code (poke m 0x2e2 0) := hc.poke (by omega)
  ins hc1.at_79d
  have hc2 : Code (poke (poke m 0x2e2 0) 0x2e3 0) := hc1.poke (by omega)
  br hc2.at_7a0, rfl
  exact ⟨_, .refl _, rfl, rfl, rfl, rfl, rfl⟩

/-- **the outer loop** loads all segments, calls the init routines and starts the program -/
theorem segs_loop {A : Atari} (ha : Apart A) {x : Bytes} (hx : OnDisk A x) (hlen : x.length < 0x10000) {b : Prop} {m m' : Nat → UInt8} {l : List Seg}
    (hl : Loads A b m l m') : (∀ s ∈ l, Loadable A s) →
    ∀ (i : Nat) (c : Cpu), Ready x i c → x.drop i = l.flatMap xexPiece → c.pc = 0x75a → 0x84 ≤ c.s.toNat → (∀ p, Free A b p → c.mem p = m p) →
    ∃ e, A.Runs c e ∧ e.pc = word (e.mem 0x2e0) (e.mem 0x2e1) ∧ ∀ p, Free A b p → e.mem p = m' p := by
  induction hl with
  | nil m =>
    intro _ i c hr hd hpc hs hm
    have hi : i = x.length := by
      have := congrArg List.length hd
      have hle := hr.le
      simp only [List.length_drop, List.flatMap_nil, List.length_nil] at this
      omega
    obtain ⟨e, r1, p1, m1⟩ := call_finish (A := A) hr hi (by rw [hpc]; exact hr.code.at_75a) (by omega) hs
    refine ⟨e, r1, ?_, fun p hp => (m1 p (not_loaderMem hp.1).1).trans (hm p hp)⟩
    rw [p1, m1 _ (not_scratch_vector ha (by omega) (by omega)), m1 _ (not_scratch_vector ha (by omega) (by omega))]
  | @plain m m' s l h _ ih =>
    intro hl i c hr hd hpc hs hm
    rw [List.flatMap_cons] at hd
    obtain ⟨c1, r1, q1, d1, p1, s1, m1⟩ := one_seg ha hx hlen (hl s (List.mem_cons_self ..)) hr hd hpc hs
    have hm1 : ∀ p, Free A b p → c1.mem p = loadSeg m s p := fun p hp => (m1 p hp.1).trans (loadSeg_congr (hm p hp))
    obtain ⟨c2, r2, p2, s2, x2, y2, m2⟩ := next_block (A := A) q1.code p1
      ⟨(hm1 _ (free_vector ha (by omega) (by omega))).trans h.1, (hm1 _ (free_vector ha (by omega) (by omega))).trans h.2⟩
    obtain ⟨e, r3, p3, m3⟩ := ih (fun t ht => hl t (List.mem_cons_of_mem _ ht)) _ c2 (q1.same x2 y2 fun p _ => by rw [m2]) d1 p2 (by rw [s2, s1]; exact hs)
      (fun p hp => by rw [m2]; exact hm1 p hp)
    exact ⟨e, r1.trans (r2.trans r3), p3, m3⟩
  | @init m m1' m' s l hb h hret _ ih =>
    intro hl i c hr hd hpc hs hm
    rw [List.flatMap_cons] at hd
    obtain ⟨c1, r1, q1, d1, p1, s1, m1⟩ := one_seg ha hx hlen (hl s (List.mem_cons_self ..)) hr hd hpc hs
    have hm1 : ∀ p, Free A b p → c1.mem p = loadSeg m s p := fun p hp => (m1 p hp.1).trans (loadSeg_congr (hm p hp))
    have v1 := hm1 0x2e2 (free_vector ha (by omega) (by omega))
    have v2 := hm1 0x2e3 (free_vector ha (by omega) (by omega))
    obtain ⟨c2, r2, p2, s2, s2', k2, x2, m2⟩ := to_init (A := A) q1 p1 (by rw [s1]; exact hs) (by rw [v1, v2]; exact h)
    have hslt := c1.s.toNat_lt
    rw [s1] at s2 hslt
    have hfree : ∀ p, Free A True p → Free A b p := fun p hp => ⟨hp.1, fun h _ => hp.2 h trivial⟩
    have hnostack : ∀ p, Free A True p → ¬ (0x180 ≤ p ∧ p ≤ 0x1ff) := by
      intro p hp h
      refine hp.1 (.inl ?_)
      unfold Scratch; omega
    obtain ⟨c3, r3, p3, s3, keep3, m3⟩ := hret c2 (by rw [p2, v1, v2]) (by omega) (by omega)
      (fun p hp => (m2 p (fun h => hp.2 h trivial) (hnostack p hp)).trans (hm1 p (hfree p hp)))
    have keep : ∀ p, p ≠ 0x19 → MustKeep p → c3.mem p = c1.mem p := by
      intro p h1 h2
      refine (keep3 p h2).trans (m2 p h1 ?_)
      unfold MustKeep at h2; omega
    have hc3 : Code c3.mem := fun p g1 g2 g3 g4 => (keep p (by omega) (by unfold MustKeep; omega)).trans (q1.code p g1 g2 g3 g4)
    obtain ⟨c4, r4, p4, s4, x4, y4, m4⟩ := from_init (A := A) hc3 (p3.trans k2)
    have q4 : Ready x (i + (xexPiece s).length) c4 := by
      refine q1.same ?_ (y4.trans q1.y.symm) fun p hp => ?_
      · rw [x4, keep3 _ (.inl rfl), x2]
      · rw [m4, poke_ne _ _ (by omega), poke_ne _ _ (by omega)]
        exact keep p (by omega) (by unfold MustKeep; omega)
    obtain ⟨e, r5, p5, m5⟩ := ih (fun t ht => hl t (List.mem_cons_of_mem _ ht)) _ c4 q4 d1 p4 (by rw [s4, s3, s2', s1]; exact hs)
      (fun p hp => by
        rw [m4]
        unfold poke
        by_cases h1 : p = 0x2e3
        · rw [if_pos h1, if_pos h1]
        · rw [if_neg h1, if_neg h1]
          by_cases h2 : p = 0x2e2
          · rw [if_pos h2, if_pos h2]
          · rw [if_neg h2, if_neg h2]
            exact m3 p ⟨hp.1, fun h _ => hp.2 h hb⟩)
    exact ⟨e, r1.trans (r2.trans (r3.trans (r4.trans r5))), p5, m5⟩

/-- without init addresses -/
theorem loads_plain (A : Atari) (b : Prop) : ∀ (l : List Seg) (m : Nat → UInt8), m 0x2e2 = 0 ∧ m 0x2e3 = 0 →
    (∀ s ∈ l, ∀ p, s.origin ≤ p → p < s.origin + s.data.length → p ≠ 0x2e2 ∧ p ≠ 0x2e3) → Loads A b m l (loadSegs m l)
  | [], m, _, _ => .nil m
  | s :: l, m, h, hl => by
    have e : loadSeg m s 0x2e2 = 0 ∧ loadSeg m s 0x2e3 = 0 := by
      unfold loadSeg
      have hs := hl s (List.mem_cons_self ..)
      rw [if_neg (fun g => (hs _ g.1 g.2).1 rfl), if_neg (fun g => (hs _ g.1 g.2).2 rfl)]
      exact h
    exact .plain e (loads_plain A b l _ e fun t ht => hl t (List.mem_cons_of_mem _ ht))

/-- what the first part of the loader puts into memory outside of its own: the display list, boot and cold start flags, and no init address -/
def bootSetup (m : Nat → UInt8) : Nat → UInt8 := fun p =>
  if p = 0x9 then 1 else if p = 0x230 then 0xe3 else if p = 0x231 then 7 else if p = 0x244 then 0 else if p = 0xd402 then 0xe3
  else if p = 0xd403 then 7 else if p = 0x2e2 then 0 else if p = 0x2e3 then 0 else m p

theorem Code.at_706 {m} (h : Code m) : decode6502 m 0x706 = some (.jmp 0x70d, 3) := by
  have e0 : m 0x706 = 0x4c := (h _ (by omega) (by omega) (by omega) (by omega)).trans rfl
  have e1 : m 0x707 = 0x0d := (h _ (by omega) (by omega) (by omega) (by omega)).trans rfl
  have e2 : m 0x708 = 0x07 := (h _ (by omega) (by omega) (by omega) (by omega)).trans rfl
  unfold decode6502
  simp [e0, e1, e2, word]

local macro "code" : tactic => `(tactic| repeat (first | assumption | refine Code.poke ?_ (by omega)))

/-- the first part: the device control block, the sector number and the display list -/
theorem init_block {A : Atari} {c : Cpu} (hc : Code c.mem) (hpc : c.pc = 0x706) :
    ∃ e, A.Runs c e ∧ Code e.mem ∧ Dcb e.mem ∧ e.pc = 0x756 ∧ e.s = c.s ∧ word (e.mem 0x30a) (e.mem 0x30b) = 4 ∧
      (e.mem 0x709 = c.mem 0x709 ∧ e.mem 0x70a = c.mem 0x70a) ∧ ∀ p, ¬ LoaderMem A p → e.mem p = bootSetup c.mem p := by
  obtain ⟨a, x, y, s, n, z, cf, pc, m⟩ := c
  simp only at hc hpc ⊢
  subst hpc
  ins hc.at_706
  ins (Code.at_70d (by code))
  ins (Code.at_70f (by code))
  ins (Code.at_712 (by code))
  ins (Code.at_715 (by code))
  ins (Code.at_718 (by code))
  ins (Code.at_71b (by code))
  ins (Code.at_71e (by code))
  ins (Code.at_71f (by code))
  ins (Code.at_721 (by code))
  ins (Code.at_724 (by code))
  ins (Code.at_727 (by code))
  ins (Code.at_729 (by code))
  ins (Code.at_72c (by code))
  ins (Code.at_72e (by code))
  ins (Code.at_731 (by code))
  ins (Code.at_733 (by code))
  ins (Code.at_736 (by code))
  ins (Code.at_738 (by code))
  ins (Code.at_73b (by code))
  ins (Code.at_73d (by code))
  ins (Code.at_740 (by code))
  ins (Code.at_743 (by code))
  ins (Code.at_745 (by code))
  ins (Code.at_748 (by code))
  ins (Code.at_74b (by code))
  ins (Code.at_74d (by code))
  ins (Code.at_74e (by code))
  ins (Code.at_751 (by code))
  ins (Code.at_753 (by code))
  refine ⟨_, .refl _, by code, ⟨?_, ?_, ?_, ?_, ?_, ?_, ?_⟩, rfl, rfl, ?_, ⟨?_, ?_⟩, ?_⟩
  iterate 10 (simp [poke, word])
  intro p h1
  obtain ⟨-, -, k3, k4⟩ := not_loaderMem h1
  show poke _ _ _ p = bootSetup m p
  unfold bootSetup
  by_cases g1 : p = 0x9
  · subst g1; simp [poke]
  by_cases g2 : p = 0x230
  · subst g2; simp [poke]
  by_cases g3 : p = 0x231
  · subst g3; simp [poke]
  by_cases g4 : p = 0x244
  · subst g4; simp [poke]
  by_cases g5 : p = 0xd402
  · subst g5; simp [poke]
  by_cases g6 : p = 0xd403
  · subst g6; simp [poke]
  by_cases g7 : p = 0x2e2
  · subst g7; simp [poke]
  by_cases g8 : p = 0x2e3
  · subst g8; simp [poke]
  rw [if_neg g1, if_neg g2, if_neg g3, if_neg g4, if_neg g5, if_neg g6, if_neg g7, if_neg g8]
  repeat rw [poke_ne _ _ (by omega)]

/-- the first sector is read: ready for the first byte -/
theorem first_block {A : Atari} (ha : Apart A) {x : Bytes} (hx : OnDisk A x) (hpos : 0 < x.length) {c : Cpu} (hc : Code c.mem) (hd : Dcb c.mem)
    (h4 : word (c.mem 0x30a) (c.mem 0x30b) = 4) (hn : word (c.mem 0x709) (c.mem 0x70a) = x.length)
    (hpc : c.pc = 0x756) (hs : 0x84 ≤ c.s.toNat) :
    ∃ e, A.Runs c e ∧ Ready x 0 e ∧ e.pc = 0x75a ∧ e.s = c.s ∧ ∀ p, ¬ LoaderMem A p → e.mem p = c.mem p := by
  refine call_state (by rw [hpc]; exact hc.at_756) (by omega) hs ?_
  intro d q1 q2 q3 q4 q5 q6 q7
  have hslt := c.s.toNat_lt
  have hcd : Code d.mem := fun p h1 h2 h3 h4 => (q7 p (by omega)).trans (hc p h1 h2 h3 h4)
  have hdd : Dcb d.mem := ⟨(q7 _ (by omega)).trans hd.device, (q7 _ (by omega)).trans hd.unit, (q7 _ (by omega)).trans hd.command, (q7 _ (by omega)).trans hd.bufLo,
    (q7 _ (by omega)).trans hd.bufHi, (q7 _ (by omega)).trans hd.lenLo, (q7 _ (by omega)).trans hd.lenHi⟩
  obtain ⟨b, hb1, hb2⟩ := hx 0 (by omega)
  obtain ⟨c3, r3, p3, s3, n3, b3, -, m3⟩ := read_sio ha hcd hdd q1 (by omega) (d := b) (by rw [q7 _ (by omega), q7 _ (by omega), h4]; exact hb1)
  have keep3 : ∀ p, ¬ Scratch A p → c3.mem p = d.mem p := by
    intro p hp
    refine m3 p (fun h => hp (.inl h)) (fun h => hp (by unfold Scratch; omega)) (fun h => hp ?_)
    unfold Scratch; omega
  have hc3 := hcd.keep ha keep3
  have n30a : ¬ A.os 0x30a := ha.dcb _ (by omega) (by omega)
  have n30b : ¬ A.os 0x30b := ha.dcb _ (by omega) (by omega)
  have n709 : ¬ A.os 0x709 := ha.code _ (by omega) (by omega)
  have n70a : ¬ A.os 0x70a := ha.code _ (by omega) (by omega)
  have w3 : word (c3.mem 0x30a) (c3.mem 0x30b) = 4 := by
    rw [m3 _ n30a (by omega) (by omega), m3 _ n30b (by omega) (by omega), q7 _ (by omega), q7 _ (by omega), h4]
  obtain ⟨c4, r4, e1, e2, e3, e4, e5, e6, e7⟩ := read_rest (A := A) hc3 p3 n3 (by rw [w3]; omega)
  have keep4 : ∀ p, ¬ Scratch A p → c4.mem p = d.mem p := fun p hp =>
    (e7 p (fun h => hp (by unfold Scratch; omega)) (fun h => hp (by unfold Scratch; omega)) (fun h => hp (by unfold Scratch; omega))).trans (keep3 p hp)
  have ret : c4.pc = 0x759 := by
    rw [e1, ret_pc s3 (fun k h1 h2 => m3 k (ha.stack k (by omega) (by omega)) (by omega) (by omega)) (by omega), q6, hpc]
  have hc4 := hcd.keep ha keep4
  have hd4 := hdd.keep ha keep4
  have hbuf : ∀ t < 128, c4.mem (0x100 + t) = x.getD (128 * 0 + t) 0 := by
    intro t ht
    rw [e7 _ (by omega) (by omega) (by omega), b3 t ht, hb2 t ht]
  have hcount : word (c4.mem 0x709) (c4.mem 0x70a) = x.length - 0 := by
    rw [e7 _ (by omega) (by omega) (by omega), e7 _ (by omega) (by omega) (by omega), m3 _ n709 (by omega) (by omega), m3 _ n70a (by omega) (by omega),
      q7 _ (by omega), q7 _ (by omega), hn]; omega
  rw [w3] at e6
  have hkeep : ∀ p, ¬ LoaderMem A p → c4.mem p = c.mem p := by
    intro p hp
    have k1 := (not_loaderMem hp).1
    rw [keep4 p k1]
    refine q7 p fun h => k1 ?_
    unfold Scratch; omega
  have hs4 : c4.s = c.s := by rw [e2, s3, q3]
  have key : ∃ e, A.Runs c4 e ∧ (Ready x 0 e ∧ e.pc = 0x75a ∧ e.s = c.s ∧ ∀ p, ¬ LoaderMem A p → e.mem p = c.mem p) := by
    clear e1 e2 e5 e7 keep4
    obtain ⟨a, x, y, s, n, z, cf, pc, m⟩ := c4
    simp only at ret hc4 hd4 hbuf hcount e3 e4 e6 hkeep hs4
    subst ret e3 e4
    ins hc4.at_759
    exact ⟨_, .refl _, ⟨hc4, hd4, rfl, Nat.zero_le _, hcount, 0, rfl, (show (0 : Nat) ≤ 128 by omega), e6, hbuf⟩, rfl, hs4, hkeep⟩
  obtain ⟨e, r5, k⟩ := key
  exact ⟨e, r3.trans (r4.trans r5), k⟩

/-- the boot code up to the first segment -/
theorem boot_begin {A : Atari} (ha : Apart A) {x : Bytes} (hx : OnDisk A x) (hlen : x.length < 0x10000) {rest : Bytes}
    (hxl : x = [0xff, 0xff] ++ rest) {c : Cpu} (hc : Code c.mem) (hn : word (c.mem 0x709) (c.mem 0x70a) = x.length)
    (hpc : c.pc = 0x706) (hs : 0x84 ≤ c.s.toNat) :
    ∃ e, A.Runs c e ∧ Ready x 2 e ∧ x.drop 2 = rest ∧ e.pc = 0x75a ∧ e.s = c.s ∧ ∀ p, ¬ LoaderMem A p → e.mem p = bootSetup c.mem p := by
  have hpos : 2 ≤ x.length := by rw [hxl]; simp
  obtain ⟨c1, r1, a1, a2, a3, a4, a6, a7, a8⟩ := init_block (A := A) hc hpc
  obtain ⟨c2, r2, b1, b2, b3, b4⟩ := first_block ha hx (by omega) a1 a2 a6 (by rw [a7.1, a7.2]; exact hn) a3 (by rw [a4]; exact hs)
  obtain ⟨c3, r3, d1, d2, d3, -, d5⟩ := head_block ha hx hlen b1 (by omega) b2 (by rw [b3, a4]; exact hs)
  have e0 : x.getD 0 0 = 0xff := by rw [hxl]; rfl
  have e1 : x.getD (0 + 1) 0 = 0xff := by rw [hxl]; rfl
  rw [e0, e1, if_pos (by decide)] at d2
  exact ⟨c3, r1.trans (r2.trans r3), d1, by rw [hxl]; rfl, d2, by rw [d3, b3, a4], fun p hp => by rw [d5 p hp, b4 p hp, a8 p hp]⟩

/-- **the whole boot code** -/
theorem boot_code {A : Atari} (ha : Apart A) {x : Bytes} (hx : OnDisk A x) (hlen : x.length < 0x10000) {l : List Seg} (hl : ∀ s ∈ l, Loadable A s)
    (hxl : x = [0xff, 0xff] ++ l.flatMap xexPiece) {c : Cpu} (hc : Code c.mem) (hn : word (c.mem 0x709) (c.mem 0x70a) = x.length)
    (hpc : c.pc = 0x706) (hs : 0x84 ≤ c.s.toNat) {b : Prop} {m' : Nat → UInt8} (hm : Loads A b (bootSetup c.mem) l m') :
    ∃ e, A.Runs c e ∧ e.pc = word (e.mem 0x2e0) (e.mem 0x2e1) ∧ ∀ p, Free A b p → e.mem p = m' p := by
  obtain ⟨c3, r3, d1, d2, d3, d4, d5⟩ := boot_begin ha hx hlen hxl hc hn hpc hs
  obtain ⟨e, r4, g1, g2⟩ := segs_loop ha hx hlen hm hl 2 c3 d1 d2 d3 (by rw [d4]; exact hs) (fun p hp => d5 p hp.1)
  exact ⟨e, r3.trans r4, g1, g2⟩

/-- with one byte left at the place of the markers the program is started -/
theorem half_head {A : Atari} (ha : Apart A) {x : Bytes} (hx : OnDisk A x) (hlen : x.length < 0x10000) {i : Nat} {c : Cpu} (hr : Ready x i c) (hi : i + 1 = x.length)
    (hpc : c.pc = 0x75a) (hs : 0x84 ≤ c.s.toNat) :
    ∃ e, A.Runs c e ∧ e.pc = word (c.mem 0x2e0) (c.mem 0x2e1) ∧ ∀ p, ¬ LoaderMem A p → e.mem p = c.mem p := by
  obtain ⟨c1, r1, q1, p1, s1, a1, m1⟩ := call_get ha hx hlen hr (by omega) (by rw [hpc]; exact hr.code.at_75a) (by omega) hs
  rw [hpc] at p1
  have k1 : ∃ e, A.Runs c1 e ∧ (Ready x (i + 1) e ∧ e.pc = 0x75f ∧ e.s = c1.s ∧ e.mem = poke c1.mem 0x43 c1.a) := by
    have hc := q1.code
    have hq := q1.store (p := 0x43) (q := 0x75f) (v := c1.a) (n := c1.n) (z := c1.z) (cf := c1.c) (a := c1.a) (by omega)
    obtain ⟨a, x, y, s, n, z, cf, pc, m⟩ := c1
    simp only at hc p1 ⊢
    subst p1
    ins hc.at_75d
    exact ⟨_, .refl _, hq, rfl, rfl, rfl⟩
  obtain ⟨c2, r2, q2, p2, s2, m2⟩ := k1
  obtain ⟨e, r3, p3, m3⟩ := call_finish (A := A) q2 hi (by rw [p2]; exact q2.code.at_75f) (by omega) (by rw [s2, s1]; exact hs)
  refine ⟨e, r1.trans (r2.trans r3), ?_, fun p hp => ?_⟩
  · rw [p3, m2, poke_ne _ _ (by omega), poke_ne _ _ (by omega), m1 _ (not_scratch_vector ha (by omega) (by omega)), m1 _ (not_scratch_vector ha (by omega) (by omega))]
  · obtain ⟨g1, g2, -⟩ := not_loaderMem hp
    rw [m3 p g1, m2, poke_ne _ _ (by omega), m1 p g1]

/-- one byte of a segment: read and stored -/
theorem one_byte {A : Atari} (ha : Apart A) {x : Bytes} (hx : OnDisk A x) (hlen : x.length < 0x10000) {i : Nat} {c : Cpu} (hr : Ready x i c) (hi : i < x.length)
    (hpc : c.pc = 0x774) (hs : 0x84 ≤ c.s.toNat) {o : Nat} (ho : word (c.mem 0x43) (c.mem 0x44) = o) (hmax : o < 0x10000)
    (n2 : ¬ (0x43 ≤ o ∧ o ≤ 0x46)) (n3 : ¬ (0x100 ≤ o ∧ o ≤ 0x17f)) (n4 : ¬ (0x300 ≤ o ∧ o ≤ 0x30b)) (n6 : ¬ (0x706 ≤ o ∧ o ≤ 0x7e2)) :
    ∃ e, A.Runs c e ∧ Ready x (i + 1) e ∧ e.pc = (if (o + 1) % 0x10000 ≤ word (c.mem 0x45) (c.mem 0x46) then 0x774 else 0x789) ∧ e.s = c.s ∧
      word (e.mem 0x43) (e.mem 0x44) = (o + 1) % 0x10000 ∧ word (e.mem 0x45) (e.mem 0x46) = word (c.mem 0x45) (c.mem 0x46) ∧
      ∀ p, ¬ LoaderMem A p → e.mem p = if p = o then x.getD i 0 else c.mem p := by
  obtain ⟨c1, r1, q1, p1, s1, a1, m1⟩ := call_get ha hx hlen hr hi (by rw [hpc]; exact hr.code.at_774) (by omega) hs
  have z : ∀ p, 0x43 ≤ p → p ≤ 0x46 → c1.mem p = c.mem p := fun p h1 h2 => m1 _ (not_scratch_page0 ha h1 h2)
  obtain ⟨c2, r2, p2, s2, x2, y2, w2, o2, m2⟩ := store_block (A := A) q1.code (p1.trans (by omega)) q1.y
    (by rw [z _ (by omega) (by omega), z _ (by omega) (by omega)]; exact ho) hmax n2 n6
  rw [z 0x45 (by omega) (by omega), z 0x46 (by omega) (by omega)] at p2
  refine ⟨c2, r1.trans r2, q1.same x2 y2 fun p hp => m2 p (by omega) (by omega) (by omega), p2, s2.trans s1, w2, ?_, fun p hp => ?_⟩
  · rw [m2 _ (by omega) (by omega) (by omega), m2 _ (by omega) (by omega) (by omega), z _ (by omega) (by omega), z _ (by omega) (by omega)]
  · by_cases h : p = o
    · subst h; rw [if_pos rfl, o2, a1]
    · obtain ⟨k1, k2, -⟩ := not_loaderMem hp
      rw [if_neg h, m2 p h (by omega) (by omega), m1 p k1]

/-- with 0xffff as end address the loader goes on at address 0 until no byte is left -/
theorem wrapped {A : Atari} (ha : Apart A) {x : Bytes} (hx : OnDisk A x) (hlen : x.length < 0x10000) : ∀ (k o i : Nat) (c : Cpu), Ready x i c → i + k = x.length → o + k ≤ 0x43 →
    c.pc = 0x774 → 0x84 ≤ c.s.toNat → word (c.mem 0x43) (c.mem 0x44) = o → word (c.mem 0x45) (c.mem 0x46) = 0xffff →
    ∃ e, A.Runs c e ∧ e.pc = word (c.mem 0x2e0) (c.mem 0x2e1) ∧ ∀ p, ¬ LoaderMem A p → 0x43 ≤ p → e.mem p = c.mem p
  | 0, o, i, c, hr, hi, _, hpc, hs, _, _ => by
    obtain ⟨e, r1, p1, m1⟩ := call_finish (A := A) hr hi (by rw [hpc]; exact hr.code.at_774) (by omega) hs
    exact ⟨e, r1, p1, fun p hp _ => m1 p (not_loaderMem hp).1⟩
  | k + 1, o, i, c, hr, hi, hok, hpc, hs, ho, he => by
    obtain ⟨c1, r1, q1, p1, s1, o1, e1, m1⟩ := one_byte ha hx hlen hr (by omega) hpc hs ho (by omega) (by omega) (by omega) (by omega) (by omega)
    rw [he, if_pos (by omega)] at p1
    obtain ⟨e, r2, p2, m2⟩ := wrapped ha hx hlen k (o + 1) (i + 1) c1 q1 (by omega) (by omega) p1 (by rw [s1]; exact hs) (by rw [o1]; omega) (e1.trans he)
    have v : ∀ p, 0x2e0 ≤ p → p ≤ 0x2e3 → ¬ LoaderMem A p := fun p h1 h2 => (free_vector ha (b := False) h1 h2).1
    refine ⟨e, r1.trans r2, ?_, fun p hp h => ?_⟩
    · rw [p2, m1 _ (v _ (by omega) (by omega)), m1 _ (v _ (by omega) (by omega)), if_neg (by omega), if_neg (by omega)]
    · rw [m2 p hp h, m1 p hp, if_neg (by omega)]

/-- what is loaded does not depend on what was in memory before -/
theorem loadSegs_covered {p : Nat} : ∀ {m m' : Nat → UInt8} (l : List Seg), (∃ s ∈ l, s.origin ≤ p ∧ p < s.origin + s.data.length) → loadSegs m l p = loadSegs m' l p := by
  intro m m' l
  induction l generalizing m m' with
  | nil => rintro ⟨s, hs, _⟩; cases hs
  | cons s l ih =>
    intro hex
    by_cases hin : s.origin ≤ p ∧ p < s.origin + s.data.length
    · exact loadSegs_congr l (by unfold loadSeg; rw [if_pos hin, if_pos hin])
    · obtain ⟨t, ht, hin'⟩ := hex
      rcases List.mem_cons.mp ht with rfl | ht
      · exact absurd hin' hin
      · exact ih ⟨t, ht, hin'⟩

end Atr
