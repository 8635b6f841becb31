import Verif.Model.Text
/-!
# C36: numeric arguments
-/
namespace Atr

/-- the value of a digit character, of either case, written out -/
def digitChars : List (Char × Nat) :=
  [('0', 0), ('1', 1), ('2', 2), ('3', 3), ('4', 4), ('5', 5), ('6', 6), ('7', 7), ('8', 8), ('9', 9),
   ('a', 10), ('b', 11), ('c', 12), ('d', 13), ('e', 14), ('f', 15), ('A', 10), ('B', 11), ('C', 12), ('D', 13), ('E', 14), ('F', 15)]

/-- a numeral in base `b`: the characters with the values they stand for -/
def Numeral (b : Nat) (l : List (Char × Nat)) : Prop := l ≠ [] ∧ ∀ p ∈ l, p ∈ digitChars ∧ p.2 < b

/-- what a numeral denotes: every digit weighted with the power of the base of its place -/
def denote (b : Nat) : List (Char × Nat) → Nat
  | [] => 0
  | p :: l => p.2 * b ^ l.length + denote b l

theorem digitChars_ok : ∀ p ∈ digitChars, digitOf p.1 = some p.2 ∧ p.1 ≠ '_' ∧ p.1 ≠ '-' ∧ p.1 ≠ '+' ∧ isPySpace p.1 = false ∧
    p.1 ≠ 'x' ∧ p.1 ≠ 'X' ∧ p.1 ≠ '$' ∧ p.1 ≠ '#' ∧ p.1 ≠ '%' := by decide

theorem pyDigits_numeral (b : Nat) (l : List (Char × Nat)) (h : ∀ p ∈ l, p ∈ digitChars ∧ p.2 < b) (acc : Nat) :
    pyDigits b false acc (l.map (·.1)) = some (acc * b ^ l.length + denote b l) := by
  induction l generalizing acc with
  | nil => simp [pyDigits, denote]
  | cons p l ih =>
    have hp := h p List.mem_cons_self
    have hd := digitChars_ok p hp.1
    rw [List.map_cons, pyDigits, if_neg hd.2.1, hd.1]
    simp only
    rw [if_pos hp.2, ih (fun q hq => h q (List.mem_cons_of_mem _ hq))]
    congr 1
    rw [denote, List.length_cons, Nat.pow_succ, Nat.add_mul, Nat.add_assoc, Nat.mul_assoc, Nat.mul_comm b]

theorem dropWhile_of_not {α : Type} {f : α → Bool} {l : List α} (h : ∀ a ∈ l, f a = false) : l.dropWhile f = l := by
  cases l with
  | nil => rfl
  | cons a l => rw [List.dropWhile_cons_of_neg]; simp [h a List.mem_cons_self]

theorem pyStrip_of_not {l : List Char} (h : ∀ c ∈ l, isPySpace c = false) : pyStrip l = l := by
  unfold pyStrip
  rw [dropWhile_of_not h, dropWhile_of_not (fun c hc => h c (List.mem_reverse.mp hc)), List.reverse_reverse]

theorem pyPrefix_of_digits (b : Nat) (l : List (Char × Nat)) (h : ∀ p ∈ l, p ∈ digitChars ∧ p.2 < b) : pyPrefix b (l.map (·.1)) = l.map (·.1) := by
  unfold pyPrefix
  split
  · rename_i c cs he
    rw [if_neg]
    · exact he.symm
    match l, he, h with
    | [], he, _ => cases he
    | [_], he, _ => exact absurd he (by simp)
    | p :: q :: l, he, h =>
      rw [List.map_cons, List.map_cons] at he
      injection he with _ he
      injection he with he _
      have hq := h q (by simp)
      have hd := digitChars_ok q hq.1
      rw [← he]
      rintro (⟨_, h1 | h1⟩ | ⟨h2, h1⟩)
      · exact hd.2.2.2.2.2.1 h1
      · exact hd.2.2.2.2.2.2.1 h1
      · have : q.2 < 2 := h2 ▸ hq.2
        have hb : ∀ p ∈ digitChars, (p.1 = 'b' ∨ p.1 = 'B') → p.2 = 11 := by decide
        have := hb q hq.1 h1
        omega
  · rfl

theorem pyMagnitude_numeral (b : Nat) (l : List (Char × Nat)) (h : Numeral b l) : pyMagnitude b (l.map (·.1)) = some (denote b l) := by
  unfold pyMagnitude
  rw [pyPrefix_of_digits b l h.2]
  match l, h with
  | [], h => exact absurd rfl h.1
  | p :: l, h =>
    have hd := digitChars_ok p (h.2 p List.mem_cons_self).1
    have := pyDigits_numeral b (p :: l) h.2 0
    rw [List.map_cons] at this ⊢
    simp only
    rw [if_neg hd.2.1, this]
    simp

theorem pyInt_numeral (b : Nat) (l : List (Char × Nat)) (h : Numeral b l) : pyInt b (l.map (·.1)) = .ok (denote b l : Int) := by
  unfold pyInt
  rw [pyStrip_of_not (fun c hc => by
    obtain ⟨p, hp, rfl⟩ := List.mem_map.mp hc
    exact (digitChars_ok p (h.2 p hp).1).2.2.2.2.1)]
  have hm := pyMagnitude_numeral b l h
  match l, h with
  | [], h => exact absurd rfl h.1
  | p :: l, h =>
    have hd := digitChars_ok p (h.2 p List.mem_cons_self).1
    rw [List.map_cons] at hm ⊢
    have : pySigned b (p.1 :: l.map (·.1)) = some (denote b (p :: l) : Int) := by
      unfold pySigned
      split
      · rename_i he; injection he with he; exact absurd he hd.2.2.1
      · rename_i he; injection he with he; exact absurd he hd.2.2.2.1
      · rw [hm]; rfl
    rw [this]

/-- **C36.** Every numeral, of any length and letter case, gives the number it denotes: with `0x` or `$` in base 16, with `#`
in base 10, with `%` in base 2, without prefix in the default base. -/
theorem C36_value (dec : Bool) (l : List (Char × Nat)) :
    (Numeral 16 l → textToInt ('0' :: 'x' :: l.map (·.1)) dec = .ok (denote 16 l : Int)) ∧
    (Numeral 16 l → textToInt ('$' :: l.map (·.1)) dec = .ok (denote 16 l : Int)) ∧
    (Numeral 10 l → textToInt ('#' :: l.map (·.1)) dec = .ok (denote 10 l : Int)) ∧
    (Numeral 2 l → textToInt ('%' :: l.map (·.1)) dec = .ok (denote 2 l : Int)) ∧
    (Numeral 10 l → textToInt (l.map (·.1)) true = .ok (denote 10 l : Int)) ∧
    (Numeral 16 l → textToInt (l.map (·.1)) false = .ok (denote 16 l : Int)) := by
  refine ⟨fun h => pyInt_numeral 16 l h, fun h => pyInt_numeral 16 l h, fun h => pyInt_numeral 10 l h, fun h => pyInt_numeral 2 l h, ?_, ?_⟩
  all_goals
    intro h
    have hv := pyInt_numeral _ l h
    unfold textToInt
    split
    · rename_i s he
      match l, he, h with
      | [], he, _ => cases he
      | [_], he, _ => exact absurd he (by simp)
      | p :: q :: l, he, h =>
        rw [List.map_cons, List.map_cons] at he
        injection he with _ he
        injection he with he _
        exact absurd he (digitChars_ok q (h.2 q (by simp)).1).2.2.2.2.2.1
    · rename_i s he
      match l, he, h with
      | [], he, _ => cases he
      | p :: l, he, h =>
        injection he with he _
        exact absurd he (digitChars_ok p (h.2 p (by simp)).1).2.2.2.2.2.2.2.1
    · rename_i s he
      match l, he, h with
      | [], he, _ => cases he
      | p :: l, he, h =>
        injection he with he _
        exact absurd he (digitChars_ok p (h.2 p (by simp)).1).2.2.2.2.2.2.2.2.1
    · rename_i s he
      match l, he, h with
      | [], he, _ => cases he
      | p :: l, he, h =>
        injection he with he _
        exact absurd he (digitChars_ok p (h.2 p (by simp)).1).2.2.2.2.2.2.2.2.2
    · exact hv

/-- the usual numeral of a number -/
theorem digits_numeral (b : Nat) (hb : 1 < b) (hb16 : b ≤ 16) (n : Nat) :
    ∃ l, Numeral b l ∧ l.map (·.1) = Nat.toDigits b n ∧ denote b l = n := by
  induction n using Nat.strongRecOn with
  | _ n ih =>
    have one : ∀ d, d < b → (Nat.digitChar d, d) ∈ digitChars := by
      intro d hd
      have : ∀ d, d < 16 → (Nat.digitChar d, d) ∈ digitChars := by decide
      exact this d (by omega)
    by_cases hn : n < b
    · refine ⟨[(Nat.digitChar n, n)], ⟨by simp, fun p hp => ?_⟩, ?_, by simp [denote]⟩
      · simp at hp
        subst hp
        exact ⟨one n hn, hn⟩
      · rw [Nat.toDigits_of_lt_base hn]; rfl
    · have hle : b ≤ n := Nat.le_of_not_lt hn
      obtain ⟨l, h1, h2, h3⟩ := ih (n / b) (Nat.div_lt_self (by omega) hb)
      have hm : n % b < b := Nat.mod_lt _ (by omega)
      refine ⟨l ++ [(Nat.digitChar (n % b), n % b)], ⟨by simp, fun p hp => ?_⟩, ?_, ?_⟩
      · rcases List.mem_append.mp hp with hp | hp
        · exact h1.2 p hp
        · simp at hp
          subst hp
          exact ⟨one _ hm, hm⟩
      · rw [Nat.toDigits_of_base_le hb hle, List.map_append, h2]; rfl
      · have hden : ∀ (l : List (Char × Nat)) (p : Char × Nat), denote b (l ++ [p]) = denote b l * b + p.2 := by
          intro l
          induction l with
          | nil => intro p; simp [denote]
          | cons q l ih =>
            intro p
            rw [List.cons_append, denote, denote, ih, List.length_append, Nat.add_mul, Nat.add_assoc, Nat.mul_assoc]
            rfl
        rw [hden, h3]
        have := Nat.div_add_mod n b
        rw [Nat.mul_comm] at this
        exact this

/-- **C36 for numbers.** Every natural number written in base 16, 10 or 2 with the right prefix is read back. -/
theorem C36_roundtrip (n : Nat) (dec : Bool) :
    textToInt ('0' :: 'x' :: Nat.toDigits 16 n) dec = .ok (n : Int) ∧ textToInt ('$' :: Nat.toDigits 16 n) dec = .ok (n : Int) ∧
    textToInt ('#' :: Nat.toDigits 10 n) dec = .ok (n : Int) ∧ textToInt ('%' :: Nat.toDigits 2 n) dec = .ok (n : Int) ∧
    textToInt (Nat.toDigits 10 n) true = .ok (n : Int) ∧ textToInt (Nat.toDigits 16 n) false = .ok (n : Int) := by
  obtain ⟨l, a1, a2, a3⟩ := digits_numeral 16 (by decide) (by decide) n
  obtain ⟨m, b1, b2, b3⟩ := digits_numeral 10 (by decide) (by decide) n
  obtain ⟨k, c1, c2, c3⟩ := digits_numeral 2 (by decide) (by decide) n
  obtain ⟨x1, x2, _, _, _, x6⟩ := C36_value dec l
  obtain ⟨_, _, y3, _, y5, _⟩ := C36_value dec m
  obtain ⟨_, _, _, z4, _, _⟩ := C36_value dec k
  rw [a2, a3] at x1 x2 x6
  rw [b2, b3] at y3 y5
  rw [c2, c3] at z4
  exact ⟨x1 a1, x2 a1, y3 b1, z4 c1, y5 b1, x6 a1⟩

theorem pyDigits_bad (b : Nat) (c : Char) (hc : c ≠ '_') (hd : ∀ d, digitOf c = some d → b ≤ d) (l : List Char) (h : c ∈ l) (prev : Bool) (acc : Nat) :
    pyDigits b prev acc l = none := by
  induction l generalizing prev acc with
  | nil => cases h
  | cons a l ih =>
    rw [pyDigits]
    rcases List.mem_cons.mp h with rfl | h
    · rw [if_neg hc]
      split
      · rfl
      · rename_i d hd2
        rw [if_neg (by have := hd d hd2; omega)]
    · split
      · split
        · rfl
        · exact ih h _ _
      · split
        · rfl
        · split
          · exact ih h _ _
          · rfl

theorem mem_pyPrefix {b : Nat} {c : Char} {l : List Char} (h : c ∈ l) (h0 : c ≠ '0') (hx : c ≠ 'x') (hX : c ≠ 'X') (hb : c ≠ 'b') (hB : c ≠ 'B')
    (hu : c ≠ '_') : c ∈ pyPrefix b l := by
  unfold pyPrefix
  split
  · rename_i d cs
    split
    · rename_i hp
      have hd : c ≠ d := by
        rintro rfl
        rcases hp with ⟨_, h | h⟩ | ⟨_, h | h⟩
        · exact hx h
        · exact hX h
        · exact hb h
        · exact hB h
      have hc : c ∈ cs := by
        rcases List.mem_cons.mp h with h | h
        · exact absurd h h0
        · rcases List.mem_cons.mp h with h | h
          · exact absurd h hd
          · exact h
      split
      · rename_i cs'
        rcases List.mem_cons.mp hc with h | h
        · exact absurd h hu
        · exact h
      · exact hc
    · exact h
  · exact h

theorem mem_dropWhile {f : Char → Bool} {c : Char} {l : List Char} (h : c ∈ l) (hf : f c = false) : c ∈ l.dropWhile f := by
  induction l with
  | nil => cases h
  | cons a l ih =>
    rw [List.dropWhile_cons]
    split
    · rename_i ha
      rcases List.mem_cons.mp h with rfl | h
      · rw [hf] at ha; cases ha
      · exact ih h
    · exact h

/-- **C36, refusal.** Text with a character that is neither a digit of the base nor one of the few that Python's `int` lets pass
(spaces, sign, underscore, a second base prefix) is refused. -/
theorem C36_refuse (b : Nat) (c : Char) (l : List Char) (h : c ∈ l) (hd : ∀ d, digitOf c = some d → b ≤ d) (hs : isPySpace c = false)
    (hx : c ≠ 'x') (hX : c ≠ 'X') (hb : c ≠ 'b') (hB : c ≠ 'B') (hu : c ≠ '_') (hm : c ≠ '-') (hp : c ≠ '+') (hb0 : 0 < b) :
    pyInt b l = .error .valueError := by
  have h0 : c ≠ '0' := by
    rintro rfl
    have := hd 0 (by decide)
    omega
  have h1 : c ∈ pyStrip l := by
    unfold pyStrip
    rw [List.mem_reverse]
    exact mem_dropWhile (List.mem_reverse.mpr (mem_dropWhile h hs)) hs
  have mag : ∀ s, c ∈ s → pyMagnitude b s = none := by
    intro s hcs
    have := mem_pyPrefix (b := b) hcs h0 hx hX hb hB hu
    unfold pyMagnitude
    split
    · rfl
    · rename_i a as he
      split
      · rfl
      · rw [he] at this
        exact pyDigits_bad b c hu hd _ this _ _
  have : pySigned b (pyStrip l) = none := by
    unfold pySigned
    split
    · rename_i s he
      rw [he] at h1
      rw [mag s ((List.mem_cons.mp h1).resolve_left hm)]; rfl
    · rename_i s he
      rw [he] at h1
      rw [mag s ((List.mem_cons.mp h1).resolve_left hp)]; rfl
    · rw [mag _ h1]; rfl
  unfold pyInt
  rw [this]

/-- no digits, no number -/
theorem C36_empty (dec : Bool) : textToInt [] dec = .error .valueError ∧ textToInt ['$'] dec = .error .valueError ∧
    textToInt ['0', 'x'] dec = .error .valueError ∧ textToInt ['#'] dec = .error .valueError ∧ textToInt ['%'] dec = .error .valueError := by
  cases dec <;> decide

example : textToInt ['$', 'B', '0', '0', 'b'] true = .ok 45067 := by decide
example : textToInt ['%', '1', '0', '1', '2'] true = .error .valueError := by decide
/-- prefixes may be doubled and signs may follow them -/
example : textToInt ['$', '0', 'x', '1', '0'] true = .ok 16 ∧ textToInt ['#', '-', '7'] true = .ok (-7) := by decide

end Atr
