import Verif.Model.SegLines
import Verif.Spec.SegLines
import Verif.Props.Display
import Verif.Props.DetectShown
import Verif.Props.Xex
/-!
# C99: what `segments` prints
-/
namespace Atr

/-! ### reading from the end -/

theorem endsIn_append (p t : List Char) : endsIn p (t ++ p) = some t := by
  unfold endsIn
  rw [if_pos (by rw [List.isSuffixOf_iff_suffix]; exact List.suffix_append _ _), List.length_append, Nat.add_sub_cancel, List.take_left]

theorem endsIn_differ (p t : List Char) {q q' : List Char} (hl : q.length = q'.length) (h : q ≠ q') : endsIn (p ++ q) (t ++ q') = none := by
  unfold endsIn
  refine if_neg fun hs => h ?_
  rw [List.isSuffixOf_iff_suffix] at hs
  obtain ⟨r, hr⟩ := hs
  rw [← List.append_assoc] at hr
  exact (List.append_inj' hr hl).2

/-- what is before the digits -/
def NoLast (p : Char → Bool) (t : List Char) : Prop := ∀ c, t.getLast? = some c → p c = false

theorem noLast_snoc {p : Char → Bool} {t : List Char} {c : Char} (h : p c = false) : NoLast p (t ++ [c]) := fun x hx => by
  rw [List.getLast?_concat] at hx
  rw [← Option.some.inj hx]; exact h

theorem lastNumber_append {base : Nat} {p : Char → Bool} {t d : List Char} (hd : ∀ c ∈ d, p c = true) (hne : d ≠ []) (ht : NoLast p t) :
    lastNumber base p (t ++ d) = some (valueOf base d, t) := by
  unfold lastNumber
  have := takeWhile_stop (p := p) (d := d.reverse) (t := t.reverse) (fun c hc => hd c (List.mem_reverse.mp hc))
    (fun c hc => ht c (by rw [List.head?_reverse] at hc; exact hc))
  rw [List.reverse_append, this.1, this.2, List.reverse_reverse]
  simp only
  rw [if_neg (by simpa using hne), List.reverse_reverse]

theorem hex_digit : ∀ d, d < 16 → isHexDigit (Nat.digitChar d) = true := by decide +kernel

theorem digits_isHex (n : Nat) : ∀ c ∈ Nat.toDigits 16 n, isHexDigit c = true := by
  induction n using Nat.strongRecOn with
  | ind n ih =>
    intro c hc
    by_cases h : n < 16
    · rw [Nat.toDigits_of_lt_base h] at hc
      rw [List.mem_singleton.mp hc]
      exact hex_digit n h
    · rw [Nat.toDigits_eq_if (by decide), if_neg h] at hc
      rcases List.mem_append.mp hc with hc | hc
      · exact ih (n / 16) (by omega) c hc
      · rw [List.mem_singleton.mp hc]
        exact hex_digit _ (by omega)

theorem digits_alsoHex (n : Nat) : ∀ c ∈ Nat.toDigits 10 n, isHexDigit c = true := by
  induction n using Nat.strongRecOn with
  | ind n ih =>
    intro c hc
    by_cases h : n < 10
    · rw [Nat.toDigits_of_lt_base h] at hc
      rw [List.mem_singleton.mp hc]
      exact hex_digit n (by omega)
    · rw [Nat.toDigits_eq_if (by decide), if_neg h] at hc
      rcases List.mem_append.mp hc with hc | hc
      · exact ih (n / 10) (by omega) c hc
      · rw [List.mem_singleton.mp hc]
        exact hex_digit _ (by omega)

theorem filled_hex (w n : Nat) : (∀ c ∈ List.replicate w '0' ++ Nat.toDigits 16 n, isHexDigit c = true) ∧
    List.replicate w '0' ++ Nat.toDigits 16 n ≠ [] ∧ valueOf 16 (List.replicate w '0' ++ Nat.toDigits 16 n) = n := by
  refine ⟨fun c hc => ?_, fun h => Nat.toDigits_ne_nil (List.append_eq_nil_iff.mp h).2, by rw [valueOf_zeros, valueOf_digits (by decide) (by decide)]⟩
  rcases List.mem_append.mp hc with hc | hc
  · rw [(List.mem_replicate.mp hc).2]; rfl
  · exact digits_isHex n c hc

theorem lastHex_pctX (w n : Nat) {t : List Char} (ht : NoLast isHexDigit t) : lastHex (t ++ pctX w n) = some (n, t) := by
  obtain ⟨h1, h2, h3⟩ := filled_hex (w - (Nat.toDigits 16 n).length) n
  have := lastNumber_append (base := 16) h1 h2 ht
  rw [h3] at this
  exact this

theorem lastDec_pctD (n : Nat) {t : List Char} (ht : NoLast Char.isDigit t) : lastDec (t ++ pctD n) = some (n, t) := by
  have := lastNumber_append (base := 10) (digits_isDigit n) Nat.toDigits_ne_nil ht
  rw [valueOf_digits (by decide) (by decide)] at this
  exact this

theorem lastAddress_pctX (w : Nat) (i : Int) (t : List Char) : lastAddress (t ++ '$' :: pctX w i) = some (i, t) := by
  unfold lastAddress
  cases i with
  | ofNat n =>
    rw [show t ++ '$' :: pctX w (Int.ofNat n) = (t ++ ['$']) ++ pctX w n by simp, lastHex_pctX w n (noLast_snoc (by decide))]
    simp only [Option.bind_eq_bind, Option.bind_some]
    rw [endsIn_append]
    rfl
  | negSucc n =>
    obtain ⟨h1, h2, h3⟩ := filled_hex (w - 1 - (Nat.toDigits 16 (n + 1)).length) (n + 1)
    have := lastNumber_append (base := 16) (t := t ++ ['$', '-']) h1 h2
      (by rw [show t ++ ['$', '-'] = (t ++ ['$']) ++ ['-'] by simp]; exact noLast_snoc (by decide))
    rw [h3] at this
    rw [show t ++ '$' :: pctX w (Int.negSucc n) =
      (t ++ ['$', '-']) ++ (List.replicate (w - 1 - (Nat.toDigits 16 (n + 1)).length) '0' ++ Nat.toDigits 16 (n + 1)) by simp [pctX]]
    rw [show lastHex _ = _ from this]
    simp only [Option.bind_eq_bind, Option.bind_some]
    rw [show endsIn ['$'] (t ++ ['$', '-']) = none by
      have := endsIn_differ [] (t ++ ['$']) (q := ['$']) (q' := ['-']) rfl (by decide)
      rw [List.append_assoc] at this
      exact this]
    simp only
    rw [endsIn_append]
    rfl

theorem snoc_of {p : Char → Bool} {d : List Char} (hd : ∀ c ∈ d, p c = true) (hne : d ≠ []) : ∃ r c, d = r ++ [c] ∧ p c = true :=
  ⟨d.dropLast, d.getLast hne, (List.dropLast_concat_getLast hne).symm, hd _ (List.getLast_mem hne)⟩

/-- no line that ends with a digit and a parenthesis says `bytes` or `empty file` -/
theorem digit_end {p : Char → Bool} {d : List Char} (t : List Char) (hd : ∀ c ∈ d, p c = true) (hne : d ≠ []) (hs : p 's' = false) (he : p 'e' = false ∨ (p 'l' = false ∧ 2 ≤ d.length)) :
    readBytes (t ++ d ++ [')']) = none ∧ readNothing (t ++ d ++ [')']) = none := by
  obtain ⟨r, c, h1, h2⟩ := snoc_of hd hne
  have hr : ∀ c ∈ r, p c = true := fun c hc => hd c (by rw [h1]; exact List.mem_append_left _ hc)
  have hlen : d.length = r.length + 1 := by rw [h1]; simp
  rw [hlen] at he
  rw [h1, show t ++ (r ++ [c]) ++ [')'] = (t ++ r) ++ [c, ')'] by simp]
  constructor
  · unfold readBytes
    rw [show " bytes)".toList = " byte".toList ++ ['s', ')'] from rfl, endsIn_differ _ _ (q := ['s', ')']) (q' := [c, ')']) rfl (fun h => by
      injection h with h _; rw [← h, hs] at h2; exact Bool.false_ne_true h2)]
    rfl
  · have : endsIn " (empty file)".toList (t ++ r ++ [c, ')']) = none := by
      rcases he with he | ⟨he, hl⟩
      · exact endsIn_differ " (empty fil".toList _ (q := ['e', ')']) (q' := [c, ')']) rfl (fun h => by
          injection h with h _; rw [← h, he] at h2; exact Bool.false_ne_true h2)
      · obtain ⟨r', c', h3, h4⟩ := snoc_of hr (List.length_pos_iff.mp (by omega))
        rw [h3, show t ++ (r' ++ [c']) ++ [c, ')'] = (t ++ r') ++ [c', c, ')'] by simp]
        exact endsIn_differ " (empty fi".toList _ (q := ['l', 'e', ')']) (q' := [c', c, ')']) rfl (fun h => by
          injection h with h _; rw [← h, he] at h4; exact Bool.false_ne_true h4)
    unfold readNothing
    rw [this]
    rfl

theorem readSegLine_plain (name : List Char) (n : Nat) : readSegLine (LSeg.plain name 0 n).line = some (.bytes name n) := by
  have : readBytes (LSeg.plain name 0 n).line = some (.bytes name n) := by
    unfold readBytes LSeg.line
    simp only
    rw [if_neg (by decide), List.append_nil, show ∀ x : List Char, x ++ " bytes".toList ++ ")".toList = x ++ " bytes)".toList by intro x; simp, endsIn_append]
    simp only [Option.bind_eq_bind, Option.bind_some]
    rw [lastHex_pctX 0 n (by rw [show " ($".toList = " (".toList ++ ['$'] from rfl, ← List.append_assoc]; exact noLast_snoc (by decide))]
    simp only [Option.bind_some]
    rw [endsIn_append]
    rfl
  unfold readSegLine
  rw [this]
  rfl

theorem readSegLine_empty (name : List Char) : readSegLine (LSeg.empty name []).line = some (.nothing name) := by
  have h : (LSeg.empty name []).line = name ++ " (empty file)".toList := by unfold LSeg.line; simp
  have h1 : readBytes (name ++ " (empty file)".toList) = none := by
    unfold readBytes
    rw [show " bytes)".toList = " byte".toList ++ ['s', ')'] from rfl,
      show name ++ " (empty file)".toList = (name ++ " (empty fil".toList) ++ ['e', ')'] by simp,
      endsIn_differ _ _ (q := ['s', ')']) (q' := ['e', ')']) rfl (by decide)]
    rfl
  unfold readSegLine
  rw [h, h1]
  unfold readNothing
  rw [endsIn_append]
  rfl

theorem readSegLine_obj (name : List Char) (origin : Int) (n pos : Nat) :
    readSegLine (LSeg.obj name origin n pos).line = some (.placed name origin (origin + n) n pos) := by
  have h0 : (LSeg.obj name origin n pos).line = ((name ++ " ".toList ++ '$' :: pctX 4 origin ++ "-".toList ++ '$' :: pctX 4 (origin + n)) ++ " ($".toList ++
    pctX 4 n ++ " @ $".toList) ++ pctX 4 pos ++ [')'] := by unfold LSeg.line; simp
  obtain ⟨g1, g2, _⟩ := filled_hex (4 - (Nat.toDigits 16 pos).length) pos
  have hd := digit_end ((name ++ " ".toList ++ '$' :: pctX 4 origin ++ "-".toList ++ '$' :: pctX 4 (origin + n)) ++ " ($".toList ++
    pctX 4 n ++ " @ $".toList) g1 g2 (by decide)
    (Or.inr ⟨by decide, by rw [List.length_append, List.length_replicate]; omega⟩)
  rw [h0]
  unfold readSegLine
  rw [show pctX 4 pos = List.replicate (4 - (Nat.toDigits 16 pos).length) '0' ++ Nat.toDigits 16 pos from rfl, hd.1, hd.2,
    show List.replicate (4 - (Nat.toDigits 16 pos).length) '0' ++ Nat.toDigits 16 pos = pctX 4 pos from rfl, Option.none_or, Option.none_or]
  have : readPlaced ((name ++ " ".toList ++ '$' :: pctX 4 origin ++ "-".toList ++ '$' :: pctX 4 (origin + n)) ++ " ($".toList ++
      pctX 4 n ++ " @ $".toList ++ pctX 4 pos ++ [')']) = some (.placed name origin (origin + n) n pos) := by
    unfold readPlaced
    rw [show ")".toList = [')'] from rfl, endsIn_append]
    simp only [Option.bind_eq_bind, Option.bind_some]
    rw [lastHex_pctX 4 pos (by rw [show " @ $".toList = " @ ".toList ++ ['$'] from rfl, ← List.append_assoc]; exact noLast_snoc (by decide))]
    simp only [Option.bind_some]
    rw [endsIn_append]
    simp only [Option.bind_some]
    rw [lastHex_pctX 4 n (by rw [show " ($".toList = " (".toList ++ ['$'] from rfl, ← List.append_assoc]; exact noLast_snoc (by decide))]
    simp only [Option.bind_some]
    rw [endsIn_append]
    simp only [Option.bind_some]
    rw [lastAddress_pctX]
    simp only [Option.bind_some]
    rw [endsIn_append]
    simp only [Option.bind_some]
    rw [lastAddress_pctX]
    simp only [Option.bind_some]
    rw [endsIn_append]
    rfl
  rw [this]
  rfl

theorem readSegLine_sectors (name : List Char) (first num : Nat) :
    readSegLine (LSeg.sectors name first num).line = some (.sectors name first (first + (num - 1))) := by
  have key : ∀ (x : List Char) (k : Nat), (∀ y, x = y ++ ['$'] → False) → NoLast isHexDigit x → readSegLine (x ++ pctD k ++ [')']) = readSectors (x ++ pctD k ++ [')']) := by
    intro x k hx hn
    have hd := digit_end x (digits_isDigit k) Nat.toDigits_ne_nil (by decide) (Or.inl (by decide))
    unfold readSegLine
    rw [show pctD k = Nat.toDigits 10 k from rfl, hd.1, hd.2, Option.none_or, Option.none_or]
    have : readPlaced (x ++ Nat.toDigits 10 k ++ [')']) = none := by
      unfold readPlaced
      rw [show ")".toList = [')'] from rfl, endsIn_append]
      simp only [Option.bind_eq_bind, Option.bind_some]
      have hh : ∀ c ∈ Nat.toDigits 10 k, isHexDigit c = true := digits_alsoHex k
      rw [show lastHex (x ++ Nat.toDigits 10 k) = some (valueOf 16 (Nat.toDigits 10 k), x) from lastNumber_append hh Nat.toDigits_ne_nil hn]
      simp only [Option.bind_some]
      have : endsIn " @ $".toList x = none := by
        unfold endsIn
        refine if_neg fun hs => ?_
        rw [List.isSuffixOf_iff_suffix] at hs
        obtain ⟨r, hr⟩ := hs
        exact hx (r ++ " @ ".toList) (by rw [← hr]; simp)
      rw [this]
      rfl
    rw [this, Option.none_or]
  unfold LSeg.line
  simp only
  by_cases hn : num > 1
  · rw [if_pos hn, show (")".toList : List Char) = [')'] from rfl, key]
    · unfold readSectors
      rw [show ")".toList = [')'] from rfl, endsIn_append]
      simp only [Option.bind_eq_bind, Option.bind_some]
      rw [lastDec_pctD _ (by exact noLast_snoc (by decide))]
      simp only [Option.bind_some]
      rw [show endsIn " (sector ".toList (name ++ " (sectors ".toList ++ pctD first ++ "-".toList) = none from
        endsIn_differ " (sector".toList _ (q := [' ']) (q' := ['-']) rfl (by decide)]
      simp only
      rw [endsIn_append]
      simp only [Option.bind_some]
      rw [lastDec_pctD _ (by rw [show " (sectors ".toList = " (sectors".toList ++ [' '] from rfl, ← List.append_assoc]; exact noLast_snoc (by decide))]
      simp only [Option.bind_some]
      rw [endsIn_append, show first + num - 1 = first + (num - 1) by omega]
      rfl
    · intro y hy
      have := congrArg List.getLast? hy
      rw [show "-".toList = ['-'] from rfl, List.getLast?_concat, List.getLast?_concat] at this
      exact absurd this (by decide)
    · exact noLast_snoc (by decide)
  · rw [if_neg hn, show (")".toList : List Char) = [')'] from rfl, key]
    · unfold readSectors
      rw [show ")".toList = [')'] from rfl, endsIn_append]
      simp only [Option.bind_eq_bind, Option.bind_some]
      rw [lastDec_pctD _ (by rw [show " (sector ".toList = " (sector".toList ++ [' '] from rfl, ← List.append_assoc]; exact noLast_snoc (by decide))]
      simp only [Option.bind_some]
      rw [endsIn_append, show num - 1 = 0 by omega]
      rfl
    · intro y hy
      have := congrArg List.getLast? hy
      rw [show " (sector ".toList = " (sector".toList ++ [' '] from rfl, ← List.append_assoc, List.getLast?_concat, List.getLast?_concat] at this
      exact absurd this (by decide)
    · rw [show " (sector ".toList = " (sector".toList ++ [' '] from rfl, ← List.append_assoc]; exact noLast_snoc (by decide)

/-- **C99, the lines.** Every line tells one thing only: read from its end, it gives back the name and all the numbers it was made from. -/
theorem C99_line (name : List Char) (origin : Int) (n pos first num : Nat) :
    readSegLine (LSeg.plain name 0 n).line = some (.bytes name n) ∧
    readSegLine (LSeg.empty name []).line = some (.nothing name) ∧
    readSegLine (LSeg.obj name origin n pos).line = some (.placed name origin (origin + n) n pos) ∧
    readSegLine (LSeg.sectors name first num).line = some (.sectors name first (first + (num - 1))) :=
  ⟨readSegLine_plain name n, readSegLine_empty name, readSegLine_obj name origin n pos, readSegLine_sectors name first num⟩

/-- one line for each segment, unless a name has an end of line in it -/
theorem C99_printed (l : List LSeg) (h : ∀ s ∈ l, '\n' ∉ s.line) : linesOf (printSegments l) = l.map LSeg.line :=
  C87_lines _ fun t ht => by
    obtain ⟨s, hs, rfl⟩ := List.mem_map.mp ht
    exact h s hs

/-! ### executables -/

/-- the words before a complete segment are its first and last address -/
theorem XexBody.header {pos rest l} (h : XexBody pos rest l) : ∀ pre : Bytes, pre.length = pos → ∀ s ∈ l, s.Complete →
    pos + 4 ≤ s.pos ∧ s.pos + s.data.length ≤ (pre ++ rest).length ∧ s.data ≠ [] ∧ wordAt (pre ++ rest) (s.pos - 4) = s.origin ∧
      wordAt (pre ++ rest) (s.pos - 2) + 1 = s.origin + s.data.length := by
  induction h with
  | done => intro pre _ s hs; cases hs
  | @marker pos rest l _ ih =>
    intro pre hp s hs hc
    have := ih (pre ++ [0xff, 0xff]) (by simp [hp]) s hs hc
    rw [List.append_assoc] at this
    exact ⟨by omega, this.2⟩
  | @seg pos s0 s1 e0 e1 d rest l h1 h2 h3 h4 ih =>
    intro pre hp s hs hc
    rcases List.mem_cons.mp hs with rfl | hs
    · subst hp
      have hg : ∀ i, (pre ++ s0 :: s1 :: e0 :: e1 :: (d ++ rest)).getD (pre.length + i) 0 = (s0 :: s1 :: e0 :: e1 :: (d ++ rest)).getD i 0 := fun i => by
        rw [List.getD_eq_getElem?_getD, List.getElem?_append_right (by omega), Nat.add_sub_cancel_left, ← List.getD_eq_getElem?_getD]
      refine ⟨Nat.le_refl _, by simp; omega, h3, ?_, ?_⟩
      · show wordAt _ (pre.length + 4 - 4) = _
        rw [Nat.add_sub_cancel]
        unfold wordAt
        have g0 := hg 0
        rw [Nat.add_zero] at g0
        rw [g0, hg 1]
        rfl
      · show wordAt _ (pre.length + 4 - 2) + 1 = _
        rw [show pre.length + 4 - 2 = pre.length + 2 by omega]
        unfold wordAt
        rw [hg 2, show pre.length + 2 + 1 = pre.length + 3 from rfl, hg 3]
        exact h2.symm
    · have := ih (pre ++ [s0, s1, e0, e1] ++ d) (by simp [hp]; omega) s hs hc
      rw [List.append_assoc, List.append_assoc] at this
      exact ⟨by omega, this.2⟩
  | cut => intro pre hp s hs hc; rw [List.mem_singleton] at hs; subst hs; rcases hc with hc | hc <;> cases hc
  | short2 => intro pre hp s hs hc; rw [List.mem_singleton] at hs; subst hs; rcases hc with hc | hc <;> cases hc
  | short3 => intro pre hp s hs hc; rw [List.mem_singleton] at hs; subst hs; rcases hc with hc | hc <;> cases hc
  | odd => intro pre hp s hs hc; rw [List.mem_singleton] at hs; subst hs; rcases hc with hc | hc <;> cases hc

/-- **C99, executables.** One line for the whole file, then one for each segment in the order of the file.  The line of a complete segment gives the addresses its header
gives (the second one is the first address behind it), the number of bytes, and the position in the file of its first byte. -/
theorem C99_xex {b : Bytes} {l : List XSeg} (h : parseXex b = .ok l) :
    ∃ r, (shownXex b l).map (fun s => readSegLine s.line) = some (.bytes "XEX (Atari 8-bit executable)".toList b.length) :: r ∧ r.length = l.length ∧
      ∀ (i : Nat) (s : XSeg), l[i]? = some s → s.Complete → ∃ start count pos : Nat, r[i]? = some (some (SegLine.placed [] start (start + count : Nat) count pos)) ∧
        4 ≤ pos ∧ 0 < count ∧ pos + count ≤ b.length ∧ wordAt b (pos - 4) = start ∧ wordAt b (pos - 2) + 1 = start + count ∧
        slice b pos (pos + count) = s.data := by
  refine ⟨(l.map XSeg.shown).map fun s => readSegLine s.line, ?_, ?_, ?_⟩
  · unfold shownXex container
    rw [List.map_cons, readSegLine_plain]
  · rw [List.length_map, List.length_map]
  · intro i s hi hc
    have hs := List.mem_of_getElem? hi
    have hb := ((C18_grammar b l).mp h).2
    obtain ⟨q1, q2, q3, q4, q5⟩ := hb.header [] rfl s hs hc
    refine ⟨s.origin, s.data.length, s.pos, ?_, by omega, List.length_pos_iff.mpr q3, q2, q4, q5, (C18_pieces h).1 s hs⟩
    rw [List.getElem?_map, List.getElem?_map, hi]
    have : s.shown = .obj [] s.origin s.data.length s.pos := by
      unfold XSeg.shown
      rcases hc with hc | hc <;> rw [hc]
    simp only [Option.map_some]
    rw [this, readSegLine_obj]
    rfl

/-- two segments, the second of them the run address; printed as they are on the screen -/
example : (shownXex [0xff, 0xff, 0x00, 0x06, 0x01, 0x06, 10, 11, 0xe0, 0x02, 0xe1, 0x02, 0x00, 0x06]
    [⟨.obj, 6, 0x600, [10, 11]⟩, ⟨.run, 12, 0x2e0, [0, 6]⟩]).map LSeg.line =
    ["XEX (Atari 8-bit executable) ($e bytes)".toList, " $0600-$0602 ($0002 @ $0006)".toList, " $02e0-$02e2 ($0002 @ $000c)".toList] ∧
    parseXex [0xff, 0xff, 0x00, 0x06, 0x01, 0x06, 10, 11, 0xe0, 0x02, 0xe1, 0x02, 0x00, 0x06] = .ok [⟨.obj, 6, 0x600, [10, 11]⟩, ⟨.run, 12, 0x2e0, [0, 6]⟩] := by
  decide +kernel

/-- where the last piece is, if the end of the file cuts it off -/
theorem XexBody.tail {pos rest l} (h : XexBody pos rest l) : ∀ s ∈ l,
    (s.kind = .odd → s.pos + 1 = pos + rest.length ∧ s.data.length = 1) ∧
    (s.kind = .short → s.pos + s.data.length = pos + rest.length ∧ pos ≤ s.pos ∧ (s.data.length = 2 ∨ s.data.length = 3)) := by
  induction h with
  | done => intro s hs; cases hs
  | marker _ ih =>
    intro s hs
    obtain ⟨a, b⟩ := ih s hs
    exact ⟨fun h => by have := a h; simp only [List.length_cons]; omega, fun h => by have := b h; simp only [List.length_cons]; omega⟩
  | @seg pos s0 s1 e0 e1 d rest l h1 h2 h3 h4 ih =>
    intro s hs
    rcases List.mem_cons.mp hs with rfl | hs
    · refine ⟨fun h => ?_, fun h => ?_⟩ <;> (dsimp only at h; split at h <;> cases h)
    · obtain ⟨a, b⟩ := ih s hs
      exact ⟨fun h => by have := a h; simp only [List.length_cons, List.length_append]; omega,
        fun h => by have := b h; simp only [List.length_cons, List.length_append]; omega⟩
  | cut => intro s hs; rw [List.mem_singleton] at hs; subst hs; exact ⟨fun h => (nomatch h), fun h => (nomatch h)⟩
  | short2 => intro s hs; rw [List.mem_singleton] at hs; subst hs; exact ⟨fun h => (nomatch h), fun _ => ⟨rfl, Nat.le_refl _, .inl rfl⟩⟩
  | short3 => intro s hs; rw [List.mem_singleton] at hs; subst hs; exact ⟨fun h => (nomatch h), fun _ => ⟨rfl, Nat.le_refl _, .inr rfl⟩⟩
  | odd => intro s hs; rw [List.mem_singleton] at hs; subst hs; exact ⟨fun _ => ⟨rfl, rfl⟩, fun h => (nomatch h)⟩

/-- **C99 is false for what the end of an executable cuts off.** A single last byte is shown one position too high (at the end of the file, where there is no byte), the
two or three bytes of a header that is cut off are shown at position 0, where the first two bytes of the file are. -/
theorem C99_refuted_tail {b : Bytes} {l : List XSeg} (h : parseXex b = .ok l) : ∀ s ∈ l,
    (s.kind = .odd → slice b (b.length - 1) b.length = s.data ∧ ∃ n, readSegLine s.shown.line = some (.placed n 0 1 1 b.length)) ∧
    (s.kind = .short → ∃ c, (c = 2 ∨ c = 3) ∧ slice b (b.length - c) b.length = s.data ∧ ∃ n, readSegLine s.shown.line = some (.placed n 0 c c 0)) := by
  intro s hs
  have hb := ((C18_grammar b l).mp h).2
  have hp := (C18_pieces h).1 s hs
  obtain ⟨t1, t2⟩ := hb.tail s hs
  unfold XSeg.stop at hp
  refine ⟨fun hk => ?_, fun hk => ?_⟩
  · obtain ⟨p1, p2⟩ := t1 hk
    refine ⟨?_, "Incomplete Data".toList, ?_⟩
    · rw [← hp, p2]
      congr 1 <;> omega
    · unfold XSeg.shown
      rw [hk]
      simp only
      rw [readSegLine_obj, p2, p1, Nat.zero_add]
      rfl
  · obtain ⟨p1, _, p2⟩ := t2 hk
    refine ⟨s.data.length, p2, ?_, "Short Segment Header".toList, ?_⟩
    · conv => rhs; rw [← hp]
      congr 1 <;> omega
    · unfold XSeg.shown
      rw [hk]
      simp only
      rw [readSegLine_obj]
      congr 2
      omega

/-- one segment and one byte more: 9 bytes, and the last of them is said to be at $0009 -/
example : parseXex [0xff, 0xff, 0x00, 0x06, 0x01, 0x06, 10, 11, 12] = .ok [⟨.obj, 6, 0x600, [10, 11]⟩, ⟨.odd, 8, 0, [12]⟩] ∧
    (XSeg.shown ⟨.odd, 8, 0, [12]⟩).line = "Incomplete Data $0000-$0001 ($0001 @ $0009)".toList ∧
    (XSeg.shown ⟨.short, 8, 0, [12, 13]⟩).line = "Short Segment Header $0000-$0002 ($0002 @ $0000)".toList := by decide +kernel

/-! ### Atari DOS disks -/

theorem firstBytes_fit {h : AHeader} {n k : Nat} (g : h.Geom n) (hk : k ≤ h.maxSectors) : h.headerOffset + firstBytes h k ≤ n := by
  have hf := g.fit
  have hm := g.max
  unfold firstBytes
  rcases g.inits with ⟨i1, i2⟩ | ⟨i1, i2, i3, i4⟩
  · rw [i1, i2] at hm
    rw [if_neg (by omega)]
    have := Nat.mul_le_mul_left h.sectorSize hk
    rw [hm, Nat.zero_mul, Nat.sub_zero, Nat.add_zero] at this
    have := Nat.mul_div_le h.imageSize h.sectorSize
    omega
  · rw [i1, i2, i3, i4] at hm
    rw [if_pos i1, i3]
    omega

theorem shownAll_map {δ : Type} {f : δ → Except Err LSeg} {g : δ → LSeg} : ∀ {l : List δ}, (∀ d ∈ l, f d = .ok (g d)) → shownAll f l = .ok (l.map g) := by
  intro l
  induction l with
  | nil => intro _; rfl
  | cons d l ih =>
    intro h
    rw [shownAll, h d List.mem_cons_self, ih fun e he => h e (List.mem_cons_of_mem _ he)]
    rfl

theorem readFileName_ok (name : List Char) (num first : Nat) :
    readFileName (name ++ " ".toList ++ pctD num ++ "s@".toList ++ pctD first) = some (name, num, first) := by
  unfold readFileName
  rw [lastDec_pctD _ (by rw [show "s@".toList = "s".toList ++ ['@'] from rfl, ← List.append_assoc]; exact noLast_snoc (by decide))]
  simp only [Option.bind_eq_bind, Option.bind_some]
  rw [endsIn_append]
  simp only [Option.bind_some]
  rw [lastDec_pctD _ (by exact noLast_snoc (by decide))]
  simp only [Option.bind_some]
  rw [endsIn_append]
  rfl

/-- the lines for the boot sectors: their number and their address are taken from the sector of the VTOC, the position is given as 0 -/
def bootLines (h : AHeader) (b : Bytes) : List SegLine :=
  if (sec h b 360).getD 0 0 = 0 then
    let addr := wordAt (sec h b 360) 2
    let n := firstBytes h (max ((sec h b 360).getD 1 0).toNat 1)
    [.placed "Boot Sectors".toList addr (addr + n : Nat) n 0, .placed "Boot Header".toList addr (addr + 20 : Nat) 20 0,
      .placed "Boot Code".toList (addr + 20 : Nat) (addr + n : Nat) (n - 20) 0]
  else []

/-- **C99, Atari DOS disks.** The whole file with its size, the header, all sectors, the boot sectors, the sectors of the VTOC and of the directory, and one line for each
file of the listing, in its order, with its name, number of sectors, first sector and number of bytes. -/
theorem C99_atari {m : AImg} {ds} (hm : Mounted m ds) (say : Err → Text) : ∃ ls fs, m.shown say = .ok ls ∧
    ls.map (fun s => readSegLine s.line) =
      ([SegLine.bytes "Atari DOS Disk Image".toList m.bytes.length,
        SegLine.placed (if m.hdr.headerOffset = 16 then "ATR Header".toList else "XFD Header".toList) 0 m.hdr.headerOffset m.hdr.headerOffset 0,
        SegLine.sectors "Raw disk sectors".toList 1 m.hdr.maxSectors] ++ bootLines m.hdr m.bytes ++
        [SegLine.sectors "VTOC".toList 360 360] ++ (if m.hdr.imageSize = 133120 then [SegLine.sectors "VTOC2".toList 1024 1024] else []) ++
        [SegLine.sectors "Directory".toList 361 368] ++ fs).map some ∧
    fs.length = m.listing.length ∧
    ∀ (i : Nat) (d : ADirent), m.files[i]? = some d → ∃ t data, fs[i]? = some (SegLine.bytes t data.length) ∧
      readFileName t = some (latin1 d.filename, d.numSectors, d.startingSector.toNat) ∧ m.listing[i]? = some (d.filename, .ok data) := by
  obtain ⟨fs0, h1, h2⟩ := segments_mounted hm
  obtain ⟨c, e⟩ := mounted_iff.mp hm
  have g := c.geom
  have hs := c.sectorSize
  have hx := c.size
  have v1 : m.firstVtoc = 360 := by rw [e]; rfl
  have v2 : m.numVtoc = 1 := by rw [e]; rfl
  have v3 : m.vtoc2 = if m.hdr.imageSize = 133120 then 1024 else 0 := (congrArg AImg.vtoc2 e).trans rfl
  have d360 : m.hdr.DataSec 360 := dataSec_big g (by omega) (by omega)
  have hfl : fs0.length = m.files.length := by
    have := congrArg List.length h2
    rw [List.length_map, List.length_map] at this
    rw [this]; unfold AImg.listing; rw [List.length_map]
  let nm : ADirent → Text := fun d => latin1 d.filename ++ " ".toList ++ pctD d.numSectors ++ "s@".toList ++ pctD d.startingSector
  let data : ADirent → Bytes := fun d => match d.getFile m.hdr m.bytes with | .ok x => x | .error _ => []
  have hdat : ∀ d ∈ m.files, d.getFile m.hdr m.bytes = .ok (data d) := by
    intro d hd
    rw [e] at hd
    have := mem_files.mp hd
    obtain ⟨x, hx⟩ := getFile_live c this.1 this.2
    show _ = Except.ok (match d.getFile m.hdr m.bytes with | .ok x => x | .error _ => [])
    rw [hx]
  have hst : ∀ d ∈ m.files, ¬ d.startingSector < 0 := by
    intro d hd
    rw [e] at hd
    have := mem_files.mp hd
    obtain ⟨l, l1, _⟩ := c.chains d this.1 this.2
    exact (readChain_ok l1).2.1
  have hsh : ∀ d ∈ m.files, d.shown say m.hdr m.bytes = .ok (.plain (nm d) 0 (data d).length) := by
    intro d hd
    have hg := hdat d hd
    rw [e] at hd
    have := mem_files.mp hd
    obtain ⟨l, l1, l2, _, l4⟩ := c.chains d this.1 this.2
    unfold ADirent.getFile at hg
    unfold ADirent.shown
    rw [l1] at hg ⊢
    simp only [if_neg l2] at hg ⊢
    rw [hg]
  have hfs := shownAll_map hsh
  refine ⟨container "Atari DOS Disk Image".toList m.bytes ::
      ((([⟨.header, m.bytes.take m.hdr.headerOffset⟩, ⟨.raw, m.bytes.drop m.hdr.headerOffset⟩] ++ shownBoot m.hdr m.bytes ++
      shownVtoc m.hdr m.bytes ++ [⟨.directory, (List.range' 361 8).flatMap (sec m.hdr m.bytes)⟩] : List ISeg)).map
        (ISeg.shown m.hdr (wordAt (sec m.hdr m.bytes 360) 2) 20 360 1 m.vtoc2) ++ m.files.map fun d => .plain (nm d) 0 (data d).length),
    m.files.map fun d => SegLine.bytes (nm d) (data d).length, ?_, ?_, ?_, ?_⟩
  · unfold AImg.shown
    rw [h1, hfs, getSectors_one g d360, v1, v2]
    simp only
    rw [List.length_append, hfl, Nat.add_sub_cancel, List.take_left]
    rfl
  · have hf : (m.files.map fun d => LSeg.plain (nm d) 0 (data d).length).map (fun s => readSegLine s.line) =
        (m.files.map fun d => SegLine.bytes (nm d) (data d).length).map some := by
      rw [List.map_map, List.map_map]
      refine List.map_congr_left fun d _ => ?_
      show readSegLine (LSeg.plain (nm d) 0 (data d).length).line = _
      rw [readSegLine_plain]
      rfl
    have hoff : (m.bytes.take m.hdr.headerOffset).length = m.hdr.headerOffset := by
      have := g.fit
      rw [List.length_take]; omega
    have hhead : readSegLine (ISeg.shown m.hdr (wordAt (sec m.hdr m.bytes 360) 2) 20 360 1 m.vtoc2 ⟨.header, m.bytes.take m.hdr.headerOffset⟩).line =
        some (.placed (if m.hdr.headerOffset = 16 then "ATR Header".toList else "XFD Header".toList) 0 m.hdr.headerOffset m.hdr.headerOffset 0) := by
      show readSegLine (LSeg.obj (m.hdr.format ++ " Header".toList) 0 (m.bytes.take m.hdr.headerOffset).length 0).line = _
      rw [readSegLine_obj, hoff, Int.zero_add]
      congr 2
      unfold AHeader.format
      split <;> rfl
    have hraw : readSegLine (ISeg.shown m.hdr (wordAt (sec m.hdr m.bytes 360) 2) 20 360 1 m.vtoc2 ⟨.raw, m.bytes.drop m.hdr.headerOffset⟩).line =
        some (.sectors "Raw disk sectors".toList 1 m.hdr.maxSectors) := by
      show readSegLine (LSeg.sectors "Raw disk sectors".toList m.hdr.startingSectorLabel m.hdr.maxSectors).line = _
      rw [readSegLine_sectors, g.label, show 1 + (m.hdr.maxSectors - 1) = m.hdr.maxSectors by omega]
    have hboot : ((shownBoot m.hdr m.bytes).map (ISeg.shown m.hdr (wordAt (sec m.hdr m.bytes 360) 2) 20 360 1 m.vtoc2)).map (fun s => readSegLine s.line) =
        (bootLines m.hdr m.bytes).map some := by
      unfold shownBoot bootLines
      split
      · generalize hk : max ((sec m.hdr m.bytes 360).getD 1 0).toNat 1 = k
        have hk2 : k ≤ m.hdr.maxSectors := by
          have := ((sec m.hdr m.bytes 360).getD 1 0).toNat_lt
          omega
        have hk1 : 1 ≤ k := by omega
        have hfit := firstBytes_fit g hk2
        have h20 : 20 ≤ firstBytes m.hdr k := by
          unfold firstBytes
          split
          · omega
          · have := Nat.mul_le_mul_left m.hdr.sectorSize hk1
            omega
        have hlen : (slice m.bytes m.hdr.headerOffset (m.hdr.headerOffset + firstBytes m.hdr k)).length = firstBytes m.hdr k := by
          rw [length_slice]; omega
        simp only [List.map_cons, List.map_nil, ISeg.shown]
        rw [readSegLine_obj, readSegLine_obj, readSegLine_obj, hlen, List.length_take, List.length_drop, hlen, Nat.min_eq_left h20]
        have e1 : ∀ a k : Nat, ((a : Int) + (k : Nat) : Int) = ((a + k : Nat) : Int) := fun _ _ => rfl
        have e2 : ∀ a k : Nat, 20 ≤ k → (((a + 20 : Nat) : Int) + ((k - 20 : Nat) : Int)) = ((a + k : Nat) : Int) := fun a k h => by omega
        rw [e2 _ _ h20, e1, show ((20 : Nat) : Int) = (20 : Int) from rfl]
        rfl
      · rfl
    have hv : ((shownVtoc m.hdr m.bytes).map (ISeg.shown m.hdr (wordAt (sec m.hdr m.bytes 360) 2) 20 360 1 m.vtoc2)).map (fun s => readSegLine s.line) =
        ([SegLine.sectors "VTOC".toList 360 360] ++ (if m.hdr.imageSize = 133120 then [SegLine.sectors "VTOC2".toList 1024 1024] else [])).map some := by
      unfold shownVtoc
      rw [v3]
      by_cases he : m.hdr.imageSize = 133120
      · simp only [if_pos he, List.map_cons, List.map_nil, ISeg.shown]
        rw [readSegLine_sectors, readSegLine_sectors]
        rfl
      · simp only [if_neg he, List.map_cons, List.map_nil, ISeg.shown]
        rw [readSegLine_sectors]
        rfl
    have hdir : readSegLine (ISeg.shown m.hdr (wordAt (sec m.hdr m.bytes 360) 2) 20 360 1 m.vtoc2
        ⟨.directory, (List.range' 361 8).flatMap (sec m.hdr m.bytes)⟩).line = some (.sectors "Directory".toList 361 368) := by
      show readSegLine (LSeg.sectors "Directory".toList 361 8).line = _
      rw [readSegLine_sectors]
    simp only [List.map_append] at hboot hv hf ⊢
    simp only [List.map_cons, List.map_append, List.map_nil, hboot, hv, hf, hhead, hraw, hdir, List.cons_append, List.nil_append, List.append_assoc]
    unfold container
    rw [readSegLine_plain]
  · unfold AImg.listing; rw [List.length_map, List.length_map]
  · intro i d hi
    refine ⟨nm d, data d, by rw [List.getElem?_map, hi]; rfl, ?_, ?_⟩
    · have h0 := hst d (List.mem_of_getElem? hi)
      obtain ⟨k, hk⟩ := Int.eq_ofNat_of_zero_le (show 0 ≤ d.startingSector by omega)
      show readFileName (_ ++ pctD d.startingSector) = _
      rw [hk, readFileName_ok]
      rfl
    · unfold AImg.listing
      rw [List.getElem?_map, hi, Option.map_some, hdat d (List.mem_of_getElem? hi)]

/-- an empty disk of 720 sectors: no lines for boot sectors, none for files -/
example (say : Err → Text) : ∃ ls, (mountRec sdH sdDisk []).shown say = .ok ls ∧ ls.map (fun s => readSegLine s.line) =
    [some (.bytes "Atari DOS Disk Image".toList 92176), some (.placed "ATR Header".toList 0 16 16 0), some (.sectors "Raw disk sectors".toList 1 720),
      some (.sectors "VTOC".toList 360 360), some (.sectors "Directory".toList 361 368)] := by
  obtain ⟨ls, fs, h1, h2, h3, _⟩ := C99_atari mounted_sd say
  have hf : fs = [] := List.length_eq_zero_iff.mp h3
  have hb : bootLines sdH sdDisk = [] := by
    unfold bootLines
    refine if_neg fun hc => ?_
    have := sd_vtoc
    rw [List.head?_eq_getElem?] at this
    rw [List.getD_eq_getElem?_getD, this] at hc
    exact absurd hc (by decide)
  refine ⟨ls, h1, h2.trans ?_⟩
  have e1 : (mountRec sdH sdDisk []).bytes = sdDisk := rfl
  have e2 : (mountRec sdH sdDisk []).hdr = sdH := rfl
  rw [hf, e1, e2, hb, sdDisk_size]
  rfl

end Atr
