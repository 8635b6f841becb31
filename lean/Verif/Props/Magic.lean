import Verif.Props.Parsers
import Verif.Spec.Magic

/-! # C55 continued: the signatures byte by byte -/

namespace Atr

theorem hasSig_cons (raw : Bytes) (q : Nat × UInt8) (l) : HasSig raw (q :: l) ↔ raw[q.1]? = some q.2 ∧ HasSig raw l := by
  unfold HasSig; simp

theorem hasSig_nil (raw : Bytes) : HasSig raw [] := fun _ h => nomatch h

theorem hasSig_append (raw : Bytes) (k l) : HasSig raw (k ++ l) ↔ HasSig raw k ∧ HasSig raw l := by
  unfold HasSig
  simp only [List.mem_append]
  exact ⟨fun h => ⟨fun q hq => h q (.inl hq), fun q hq => h q (.inr hq)⟩, fun h q hq => hq.elim (h.1 q) (h.2 q)⟩

/-- the bytes `e` at position `i` and behind, one by one -/
def sigFrom (i : Nat) : Bytes → List (Nat × UInt8)
  | [] => []
  | x :: e => (i, x) :: sigFrom (i + 1) e

theorem slice_sig (raw : Bytes) : ∀ (e : Bytes) (i : Nat), (slice raw i (i + e.length) = e ↔ HasSig raw (sigFrom i e)) := by
  intro e
  induction e with
  | nil => intro i; simp [slice, sigFrom, hasSig_nil]
  | cons x e ih =>
    intro i
    rw [sigFrom, hasSig_cons, ← ih (i + 1)]
    cases hx : raw[i]? with
    | none =>
      have hl : raw.length ≤ i := List.getElem?_eq_none_iff.mp hx
      have : slice raw i (i + (x :: e).length) = [] := by
        unfold slice
        exact List.drop_eq_nil_of_le (by rw [List.length_take]; omega)
      rw [this]
      simp
    | some y =>
      obtain ⟨hl, hy⟩ := List.getElem?_eq_some_iff.mp hx
      have h1 : slice raw i (i + (x :: e).length) = y :: slice raw (i + 1) (i + 1 + e.length) := by
        unfold slice
        rw [List.drop_eq_getElem_cons (by rw [List.length_take, List.length_cons]; omega), List.getElem_take, hy, List.length_cons,
          show i + (e.length + 1) = i + 1 + e.length by omega]
      rw [h1]
      simp only [List.cons.injEq, Option.some.injEq]

theorem check_bytes (raw : Bytes) : ∀ (l : List (Nat × UInt8)) (r : Except Err Bool), checkSignature raw (l.map fun q => .byte q.1 q.2) = r →
    (HasSig raw l ∧ r = .ok true) ∨ (¬ HasSig raw l ∧ r = .ok false ∧ ¬ ∃ pre q post, l = pre ++ q :: post ∧ HasSig raw pre ∧ raw.length ≤ q.1) ∨
      (¬ HasSig raw l ∧ r = .error .indexError ∧ ∃ pre q post, l = pre ++ q :: post ∧ HasSig raw pre ∧ raw.length ≤ q.1) := by
  intro l
  induction l with
  | nil => intro r h; exact .inl ⟨hasSig_nil _, h.symm⟩
  | cons q l ih =>
    intro r h
    rw [List.map_cons, checkSignature] at h
    rw [hasSig_cons]
    unfold SigItem.check at h
    simp only at h
    cases hx : raw[q.1]? with
    | none =>
      rw [hx] at h
      have hl : raw.length ≤ q.1 := List.getElem?_eq_none_iff.mp hx
      exact .inr (.inr ⟨fun h' => (nomatch h'.1), h.symm, [], q, l, rfl, hasSig_nil _, hl⟩)
    | some y =>
      rw [hx] at h
      simp only at h
      by_cases hy : y = q.2
      · rw [show (y == q.2) = true by simp [hy]] at h
        rcases ih r h with ⟨a, b⟩ | ⟨a, b, c⟩ | ⟨a, b, pre, q', post, c1, c2, c3⟩
        · exact .inl ⟨⟨by rw [hy], a⟩, b⟩
        · refine .inr (.inl ⟨fun h' => a h'.2, b, ?_⟩)
          rintro ⟨pre, q', post, c1, c2, c3⟩
          cases pre with
          | nil =>
            injection c1 with c1 _
            subst c1
            have := (List.getElem?_eq_some_iff.mp hx).1
            omega
          | cons p pre =>
            injection c1 with c0 c1
            exact c ⟨pre, q', post, c1, ((hasSig_cons _ _ _).mp c2).2, c3⟩
        · exact .inr (.inr ⟨fun h' => a h'.2, b, q :: pre, q', post, by rw [c1]; rfl, (hasSig_cons _ _ _).mpr ⟨by rw [hx, hy], c2⟩, c3⟩)
      · rw [show (y == q.2) = false by simp [hy]] at h
        refine .inr (.inl ⟨fun h' => hy (Option.some.inj h'.1), h.symm, ?_⟩)
        rintro ⟨pre, q', post, c1, c2, c3⟩
        cases pre with
        | nil =>
          injection c1 with c1 _
          subst c1
          have := (List.getElem?_eq_some_iff.mp hx).1
          omega
        | cons p pre =>
          injection c1 with c0 c1
          subst c0
          have := ((hasSig_cons _ _ _).mp c2).1
          rw [hx] at this
          exact hy (Option.some.inj this)

/-- the check of a signature of five bytes at the start and single bytes behind -/
theorem check_long (raw e : Bytes) (l : List (Nat × UInt8)) (he : e.length = 5) (ls : List SigItem) (hls : ls = .range 0 5 e :: l.map fun q => .byte q.1 q.2) :
    (HasSig raw (sigFrom 0 e ++ l) ∧ checkSignature raw ls = .ok true) ∨
    (¬ HasSig raw (sigFrom 0 e ++ l) ∧ ¬ CutSig raw (sigFrom 0 e ++ l) ∧ checkSignature raw ls = .ok false) ∨
    (¬ HasSig raw (sigFrom 0 e ++ l) ∧ CutSig raw (sigFrom 0 e ++ l) ∧ checkSignature raw ls = .error .indexError) := by
  have hle : ∀ (e : Bytes) (i : Nat), (sigFrom i e).length = e.length := by
    intro e
    induction e with
    | nil => intro i; rfl
    | cons x e ih => intro i; rw [sigFrom, List.length_cons, ih, List.length_cons]
  subst hls
  rw [checkSignature, hasSig_append]
  have hs := slice_sig raw e 0
  rw [he] at hs
  by_cases h0 : slice raw 0 5 = e
  · rw [show (SigItem.range 0 5 e).check raw = .ok true by simp [SigItem.check, h0]]
    have h1 := hs.mp h0
    have hcut : CutSig raw (sigFrom 0 e ++ l) ↔ ∃ pre q post, l = pre ++ q :: post ∧ HasSig raw pre ∧ raw.length ≤ q.1 := by
      constructor
      · rintro ⟨pre, q, post, c1, c2, c3, c4⟩
        rcases List.append_eq_append_iff.mp c1 with ⟨as, d1, d2⟩ | ⟨as, d1, d2⟩
        · refine ⟨as, q, post, d2, ?_, c4⟩
          rw [d1, hasSig_append] at c3
          exact c3.2
        · have hl := congrArg List.length d1
          rw [hle, he, List.length_append] at hl
          have : as = [] := List.length_eq_zero_iff.mp (by omega)
          subst this
          exact ⟨[], q, post, d2.symm, hasSig_nil _, c4⟩
      · rintro ⟨pre, q, post, c1, c2, c3⟩
        exact ⟨sigFrom 0 e ++ pre, q, post, by rw [c1, List.append_assoc], by rw [List.length_append, hle]; omega,
          (hasSig_append _ _ _).mpr ⟨h1, c2⟩, c3⟩
    rw [hcut]
    rcases check_bytes raw l _ rfl with ⟨a, b⟩ | ⟨a, b, c⟩ | ⟨a, b, c⟩
    · exact .inl ⟨⟨h1, a⟩, b⟩
    · exact .inr (.inl ⟨fun h => a h.2, c, b⟩)
    · exact .inr (.inr ⟨fun h => a h.2, c, b⟩)
  · rw [show (SigItem.range 0 5 e).check raw = .ok false by simp [SigItem.check, h0]]
    have h1 : ¬ HasSig raw (sigFrom 0 e) := fun h => h0 (hs.mpr h)
    refine .inr (.inl ⟨fun h => h1 h.1, ?_, rfl⟩)
    rintro ⟨pre, q, post, c1, c2, c3, c4⟩
    rcases List.append_eq_append_iff.mp c1 with ⟨as, d1, d2⟩ | ⟨as, d1, d2⟩
    · rw [d1, hasSig_append] at c3
      exact h1 c3.1
    · have hl := congrArg List.length d1
      rw [hle, he, List.length_append] at hl
      have : as = [] := List.length_eq_zero_iff.mp (by omega)
      subst this
      rw [List.append_nil] at d1
      rw [← d1] at c3
      exact h1 c3

theorem check_range (raw e : Bytes) (i j : Nat) (hj : j = i + e.length) : (SigItem.range i j e).check raw = .ok (decide (HasSig raw (sigFrom i e))) := by
  unfold SigItem.check
  subst hj
  congr 1
  by_cases h : slice raw i (i + e.length) = e
  · rw [decide_eq_true ((slice_sig raw e i).mp h)]; simp [h]
  · rw [decide_eq_false fun h' => h ((slice_sig raw e i).mpr h')]; simp [h]

/-- **C55, executables**: exactly those with the six bytes are Getaway!. -/
theorem C55_xex (raw : Bytes) : guessDetail .xex raw = .ok (if HasSig raw sigGetawayXex then .getawayXex else .xex) := by
  unfold guessDetail magicTable
  rw [guessDetailGo, if_neg (by decide), guessDetailGo, if_pos rfl, checkSignature, check_range _ _ _ _ (by decide)]
  rw [show sigFrom 0 [0xff, 0xff, 0x80, 0x2a, 0xff, 0x8a] = sigGetawayXex from rfl]
  by_cases h : HasSig raw sigGetawayXex
  · rw [decide_eq_true h, if_pos h]; rfl
  · rw [decide_eq_false h, if_neg h]
    simp only
    rw [guessDetailGo, if_neg (by decide), guessDetailGo, if_neg (by decide), guessDetailGo, if_neg (by decide), guessDetailGo]

/-- **C55, disks**: the type of an ATR image, byte by byte, and exactly when the call raises. -/
theorem C55_atr (raw : Bytes) :
    (HasSig raw sigGetawayPd → guessDetail .atr raw = .ok .getawayPd) ∧
    (¬ HasSig raw sigGetawayPd → HasSig raw sigGetaway → guessDetail .atr raw = .ok .getaway) ∧
    (¬ HasSig raw sigGetawayPd → ¬ HasSig raw sigGetaway →
      (HasSig raw sigTester → guessDetail .atr raw = .ok .jumpmanTester) ∧
      (HasSig raw sigJumpman → guessDetail .atr raw = .ok .jumpman) ∧
      (CutSig raw sigTester ∨ CutSig raw sigJumpman → ¬ HasSig raw sigTester → ¬ HasSig raw sigJumpman →
        guessDetail .atr raw = .error .indexError) ∧
      (¬ CutSig raw sigTester → ¬ CutSig raw sigJumpman → ¬ HasSig raw sigTester → ¬ HasSig raw sigJumpman →
        guessDetail .atr raw = .ok .atr)) := by
  have hpd : checkSignature raw [.range 8 10 [0x82, 0x39], .range 12 16 [0x67, 0x21, 0x70, 0x64]] = .ok (decide (HasSig raw sigGetawayPd)) := by
    rw [checkSignature, check_range _ _ _ _ (by decide), checkSignature, check_range _ _ _ _ (by decide), checkSignature]
    by_cases h : HasSig raw sigGetawayPd
    · have : HasSig raw (sigFrom 8 [0x82, 0x39]) ∧ HasSig raw (sigFrom 12 [0x67, 0x21, 0x70, 0x64]) := (hasSig_append _ _ _).mp h
      rw [decide_eq_true h, decide_eq_true this.1, decide_eq_true this.2]
    · rw [decide_eq_false h]
      by_cases h1 : HasSig raw (sigFrom 8 [0x82, 0x39])
      · have h2 : ¬ HasSig raw (sigFrom 12 [0x67, 0x21, 0x70, 0x64]) := fun h2 => h ((hasSig_append _ _ _).mpr ⟨h1, h2⟩)
        rw [decide_eq_true h1, decide_eq_false h2]
      · rw [decide_eq_false h1]
  have hg : checkSignature raw [.range 0x10 0x19 [0x00, 0xc1, 0x80, 0x0f, 0xcc, 0x22, 0x18, 0x60, 0x0e]] = .ok (decide (HasSig raw sigGetaway)) := by
    rw [checkSignature, check_range _ _ _ _ (by decide), checkSignature]
    rw [show sigFrom 16 [0x00, 0xc1, 0x80, 0x0f, 0xcc, 0x22, 0x18, 0x60, 0x0e] = sigGetaway from rfl]
    cases decide (HasSig raw sigGetaway) <;> rfl
  have ht := check_long raw [0x96, 0x02, 0xd0, 0x05, 0x80] [(469, 76), (478, 32), (481, 96), (482, 255)] rfl
    [.range 0 5 [0x96, 0x02, 0xd0, 0x05, 0x80], .byte (0x0196 + 0x3f) 0x4c, .byte (0x0196 + 0x48) 0x20,
     .byte (0x0196 + 0x4b) 0x60, .byte (0x0196 + 0x4c) 0xff] rfl
  have hj := check_long raw [0x96, 0x02, 0x80, 0x16, 0x80] [(2127, 76), (2136, 32), (2139, 96), (2140, 255)] rfl
    [.range 0 5 [0x96, 0x02, 0x80, 0x16, 0x80], .byte (0x0810 + 0x3f) 0x4c, .byte (0x0810 + 0x48) 0x20,
     .byte (0x0810 + 0x4b) 0x60, .byte (0x0810 + 0x4c) 0xff] rfl
  rw [show sigFrom 0 [0x96, 0x02, 0xd0, 0x05, 0x80] ++ [(469, 76), (478, 32), (481, 96), (482, 255)] = sigTester from rfl] at ht
  rw [show sigFrom 0 [0x96, 0x02, 0x80, 0x16, 0x80] ++ [(2127, 76), (2136, 32), (2139, 96), (2140, 255)] = sigJumpman from rfl] at hj
  unfold guessDetail magicTable
  rw [guessDetailGo, if_pos rfl, hpd, guessDetailGo, if_neg (by decide), guessDetailGo, if_pos rfl, hg, guessDetailGo, if_pos rfl,
    guessDetailGo, if_pos rfl, guessDetailGo]
  -- the third byte tells the two apart
  have h2t : HasSig raw sigTester ∨ CutSig raw sigTester → raw[2]? = some 208 := by
    rintro (h | ⟨pre, q, post, c1, c2, c3, c4⟩)
    · exact h (2, 208) (by decide)
    · refine c3 (2, 208) ?_
      have : pre = sigTester.take pre.length := by rw [c1]; simp
      rw [this]
      have : pre.length = 5 + (pre.length - 5) := by omega
      rw [this, List.take_add]
      exact List.mem_append_left _ (by decide)
  have h2j : HasSig raw sigJumpman ∨ CutSig raw sigJumpman → raw[2]? = some 128 := by
    rintro (h | ⟨pre, q, post, c1, c2, c3, c4⟩)
    · exact h (2, 128) (by decide)
    · refine c3 (2, 128) ?_
      have : pre = sigJumpman.take pre.length := by rw [c1]; simp
      rw [this]
      have : pre.length = 5 + (pre.length - 5) := by omega
      rw [this, List.take_add]
      exact List.mem_append_left _ (by decide)
  have hno : ∀ {A B : Prop}, (A → raw[2]? = some 208) → (B → raw[2]? = some 128) → A → ¬ B := by
    intro A B ha hb a b
    have := (ha a).symm.trans (hb b)
    exact absurd (Option.some.inj this) (by decide)
  refine ⟨fun h => by rw [decide_eq_true h], fun h h' => by rw [decide_eq_false h, decide_eq_true h'], fun h h' => ?_⟩
  rw [decide_eq_false h, decide_eq_false h']
  simp only
  rcases ht with ⟨a, b⟩ | ⟨a, b, c⟩ | ⟨a, b, c⟩
  · rw [b]
    exact ⟨fun _ => rfl, fun hj => absurd (.inl hj) (hno h2t h2j (.inl a)), fun _ h => absurd a h, fun _ _ h => absurd a h⟩
  · rw [c]
    simp only
    rcases hj with ⟨a', b'⟩ | ⟨a', b', c'⟩ | ⟨a', b', c'⟩
    · rw [b']
      exact ⟨fun h => absurd h a, fun _ => rfl, fun _ _ h => absurd a' h, fun _ _ _ h => absurd a' h⟩
    · rw [c']
      exact ⟨fun h => absurd h a, fun h => absurd h a', fun h => absurd h (fun h => h.elim b b'), fun _ _ _ _ => rfl⟩
    · rw [c']
      exact ⟨fun h => absurd h a, fun h => absurd h a', fun _ _ _ => rfl, fun _ h => absurd b' h⟩
  · rw [c]
    exact ⟨fun h => absurd h a, fun hj => absurd (.inl hj) (hno h2t h2j (.inr b)), fun _ _ _ => rfl, fun h => absurd b h⟩

/-- a disk cut off behind the first Jumpman byte -/
example : CutSig ([150, 2, 128, 22, 128] ++ List.replicate 2122 0 ++ [76]) sigJumpman :=
  ⟨[(0, 150), (1, 2), (2, 128), (3, 22), (4, 128), (2127, 76)], (2136, 32), [(2139, 96), (2140, 255)], rfl, by decide, by decide +kernel, by decide +kernel⟩
example : HasSig ([150, 2, 208, 5, 128] ++ List.replicate 464 0 ++ [76, 0, 0, 0, 0, 0, 0, 0, 0, 32, 0, 0, 96, 255]) sigTester := by decide +kernel

end Atr
