import Verif.Model.Display
import Verif.Spec.Display
/-! # Reading back what is printed: numbers, columns, lines -/
namespace Atr

theorem digitVal_digitChar : ∀ d, d < 16 → digitVal d.digitChar = d := by decide

theorem valueOf_snoc (b : Nat) (t : List Char) (c : Char) : valueOf b (t ++ [c]) = b * valueOf b t + digitVal c := by
  unfold valueOf; rw [List.foldl_append]; rfl

theorem valueOf_digits {b : Nat} (hb : 1 < b) (hb16 : b ≤ 16) (n : Nat) : valueOf b (Nat.toDigits b n) = n := by
  induction n using Nat.strongRecOn with
  | ind n ih =>
    by_cases h : n < b
    · rw [Nat.toDigits_of_lt_base h]
      show b * 0 + digitVal _ = n
      rw [digitVal_digitChar n (by omega)]; omega
    · have h0 : 0 < n := by omega
      rw [Nat.toDigits_of_base_le hb (by omega), valueOf_snoc, ih _ (Nat.div_lt_self h0 hb), digitVal_digitChar _ (by have := Nat.mod_lt n (show 0 < b by omega); omega)]
      exact Nat.div_add_mod n b

theorem valueOf_zeros (b k : Nat) (t : List Char) : valueOf b (List.replicate k '0' ++ t) = valueOf b t := by
  induction k with
  | zero => rfl
  | succ k ih =>
    rw [List.replicate_succ, List.cons_append]
    show List.foldl _ (b * 0 + digitVal '0') _ = _
    rw [show b * 0 + digitVal '0' = 0 by show b * 0 + 0 = 0; omega]
    exact ih

/-- what follows a number -/
def NoDigit (t : List Char) : Prop := ∀ c, t.head? = some c → c.isDigit = false

theorem noDigit_nil : NoDigit [] := fun c h => by cases h

theorem noDigit_cons {c : Char} {t : List Char} (h : c.isDigit = false) : NoDigit (c :: t) := fun x hx => by
  simp only [List.head?_cons, Option.some.injEq] at hx; subst hx; exact h

theorem takeWhile_stop {p : Char → Bool} {d t : List Char} (hd : ∀ c ∈ d, p c = true) (ht : ∀ c, t.head? = some c → p c = false) :
    (d ++ t).takeWhile p = d ∧ (d ++ t).dropWhile p = t := by
  induction d with
  | nil =>
    cases t with
    | nil => exact ⟨rfl, rfl⟩
    | cons c t =>
      have := ht c rfl
      simp [this]
  | cons c d ih =>
    have := ih fun c hc => hd c (List.mem_cons_of_mem _ hc)
    have hc := hd c List.mem_cons_self
    rw [List.cons_append, List.takeWhile_cons, List.dropWhile_cons, if_pos hc, if_pos hc, this.1, this.2]
    exact ⟨rfl, rfl⟩

theorem number_of {d t : List Char} (hd : ∀ c ∈ d, c.isDigit = true) (hne : d ≠ []) (ht : NoDigit t) :
    number (d ++ t) = some (valueOf 10 d, t) := by
  unfold number
  obtain ⟨h1, h2⟩ := takeWhile_stop hd ht
  simp only [h1, h2, if_neg hne]

theorem digits_isDigit (n : Nat) : ∀ c ∈ Nat.toDigits 10 n, c.isDigit = true :=
  fun _ hc => Nat.isDigit_of_mem_toDigits (by decide) (by decide) hc

theorem number_pctD (n : Nat) {t : List Char} (ht : NoDigit t) : number (pctD n ++ t) = some (n, t) := by
  show number (Nat.toDigits 10 n ++ t) = _
  rw [number_of (digits_isDigit n) Nat.toDigits_ne_nil ht, valueOf_digits (by decide) (by decide)]

theorem number_pctZero (w n : Nat) {t : List Char} (ht : NoDigit t) : number (pctZero w n ++ t) = some (n, t) := by
  have hd : ∀ c ∈ List.replicate (w - (Nat.toDigits 10 n).length) '0' ++ Nat.toDigits 10 n, c.isDigit = true := fun c hc => by
    rcases List.mem_append.mp hc with hc | hc
    · rw [(List.mem_replicate.mp hc).2]; rfl
    · exact digits_isDigit n c hc
  have hne : List.replicate (w - (Nat.toDigits 10 n).length) '0' ++ Nat.toDigits 10 n ≠ [] := fun h =>
    Nat.toDigits_ne_nil (List.append_eq_nil_iff.mp h).2
  have := number_of hd hne ht
  rw [valueOf_zeros, valueOf_digits (by decide) (by decide)] at this
  exact this

/-- the first character of a numeral is a digit -/
theorem number_head (n : Nat) (t : List Char) : ∃ c r, Nat.toDigits 10 n ++ t = c :: r ∧ c.isDigit = true := by
  cases h : Nat.toDigits 10 n with
  | nil => exact absurd h Nat.toDigits_ne_nil
  | cons c r => exact ⟨c, r ++ t, rfl, digits_isDigit n c (by rw [h]; exact List.mem_cons_self)⟩

theorem signed_pctD (i : Int) {t : List Char} (ht : NoDigit t) : signed (pctD i ++ t) = some (i, t) := by
  cases i with
  | ofNat n =>
    have h := number_pctD n ht
    show signed (Nat.toDigits 10 n ++ t) = _
    have h' : number (Nat.toDigits 10 n ++ t) = some (n, t) := h
    obtain ⟨c, r, h1, h2⟩ := number_head n t
    rw [h1] at h' ⊢
    unfold signed
    split
    · rename_i heq
      injection heq with h3 _
      subst h3
      exact absurd h2 (by decide)
    · rw [h']; rfl
  | negSucc n =>
    show ((number (pctD ((n + 1 : Nat) : Int) ++ t)).map fun x => (-(x.1 : Int), x.2)) = _
    rw [number_pctD (n + 1) ht]
    rfl

theorem expect_append (p t : List Char) : expect p (p ++ t) = some t := by
  unfold expect
  rw [if_pos (by rw [List.isPrefixOf_iff_prefix]; exact List.prefix_append p t), List.drop_left]

/-! ### columns -/

theorem noBlanks_fill (t : List Char) (k : Nat) : noBlanks (t ++ List.replicate k ' ') = noBlanks t := by
  unfold noBlanks
  rw [List.reverse_append, List.reverse_replicate]
  congr 1
  induction k with
  | zero => rfl
  | succ k ih => rw [List.replicate_succ, List.cons_append, List.dropWhile_cons, if_pos (by rfl), ih]

theorem column_pctLeft {w : Nat} {t r : List Char} (h : t.length ≤ w) : column w (pctLeft w t ++ r) = some (noBlanks t, r) := by
  have hl : (pctLeft w t).length = w := by unfold pctLeft; rw [List.length_append, List.length_replicate]; omega
  unfold column
  rw [if_neg (by rw [List.length_append, hl]; omega)]
  rw [List.take_append_of_le_length (by omega), List.take_of_length_le (by omega), List.drop_append_of_le_length (by omega),
    List.drop_of_length_le (by omega), List.nil_append]
  unfold pctLeft
  rw [noBlanks_fill]

theorem dropBlanks (k : Nat) {t : List Char} (h : ∀ c, t.head? = some c → c ≠ ' ') : (List.replicate k ' ' ++ t).dropWhile (· == ' ') = t :=
  (takeWhile_stop (p := (· == ' ')) (fun c hc => by rw [(List.mem_replicate.mp hc).2]; rfl) (fun c hc => by simpa using h c hc)).2

theorem readHead_lineHead (n : Nat) (f t : List Char) : readHead (lineHead n f ++ t) = some (n, f ++ ([')', ' '] ++ t)) := by
  have e : lineHead n f ++ t = "File #".toList ++ (pctD n ++ (List.replicate (2 - (pctD (n : Int)).length + 1) ' ' ++ ('(' :: (f ++ ([')', ' '] ++ t))))) := by
    unfold lineHead pctLeft
    rw [List.replicate_succ']
    simp only [List.append_assoc]
    rfl
  unfold readHead
  rw [e, expect_append]
  simp only [Option.bind_eq_bind, Option.bind_some]
  rw [number_pctD n (by
    rw [List.replicate_succ]; exact noDigit_cons (by rfl))]
  simp only [Option.bind_some]
  rw [dropBlanks _ (fun c hc => by
    simp only [List.head?_cons, Option.some.injEq] at hc; subst hc; decide)]
  rw [show '(' :: (f ++ ([')', ' '] ++ t)) = ['('] ++ (f ++ ([')', ' '] ++ t)) from rfl, expect_append]
  rfl

theorem pctZero_head (w n : Nat) (t : List Char) : ∃ c r, pctZero w n ++ t = c :: r ∧ c ≠ ' ' := by
  show ∃ c r, (List.replicate (w - (Nat.toDigits 10 n).length) '0' ++ Nat.toDigits 10 n) ++ t = c :: r ∧ c ≠ ' '
  cases w - (Nat.toDigits 10 n).length with
  | zero =>
    obtain ⟨c, r, h1, h2⟩ := number_head n t
    exact ⟨c, r, h1, fun h => by subst h; exact absurd h2 (by decide)⟩
  | succ k => exact ⟨'0', _, rfl, by decide⟩

theorem pctD_head (i : Int) (t : List Char) : ∀ c, (pctD i ++ t).head? = some c → c ≠ ' ' := by
  intro c hc h
  subst h
  cases i with
  | ofNat n =>
    obtain ⟨c, r, h1, h2⟩ := number_head n t
    have hc : (Nat.toDigits 10 n ++ t).head? = some ' ' := hc
    rw [h1] at hc
    injection hc with hc
    subst hc
    exact absurd h2 (by decide)
  | negSucc n =>
    injection hc with hc
    exact absurd hc (by decide)

/-! ### lines -/

theorem mark_eq {c e : Char} (h : e ≠ c) (b : Bool) : (some (mark b c e) == some c) = b := by
  cases b
  · show (some e == some c) = false
    simpa using h
  · show (some c == some c) = true
    simp

/-- the line of an Atari entry -/
theorem readAtari_line (d : ADirent) {s : Nat} (hs : d.startingSector = s) (hb : d.basename.length ≤ 8) (he : d.ext.length ≤ 3) {t : List Char}
    (ht : NoDigit t) : readAtari (d.line ++ t) = some (⟨d.fileNum, d.openedOutput, d.dos2, d.mydos, d.inUse, d.deleted, d.locked, s,
      noBlanks (latin1 d.basename), noBlanks (latin1 d.ext), d.numSectors⟩, t) := by
  have e : d.line ++ t = lineHead d.fileNum d.summary ++ (pctZero 3 s ++ ([' '] ++ (pctLeft 8 (latin1 d.basename) ++ (pctLeft 3 (latin1 d.ext) ++
      ([' ', ' '] ++ (pctZero 3 d.numSectors ++ t)))))) := by
    unfold ADirent.line
    rw [hs]
    simp only [List.append_assoc]
    rfl
  unfold readAtari
  rw [e, readHead_lineHead]
  simp only [Option.bind_eq_bind, Option.bind_some]
  rw [show ∀ r, (d.summary ++ r).drop 6 = r from fun r => rfl, expect_append]
  simp only [Option.bind_some]
  rw [number_pctZero 3 s (by exact noDigit_cons (by rfl))]
  simp only [Option.bind_some]
  rw [expect_append]
  simp only [Option.bind_some]
  rw [column_pctLeft (by unfold latin1; rw [List.length_map]; exact hb)]
  simp only [Option.bind_some]
  rw [column_pctLeft (by unfold latin1; rw [List.length_map]; exact he)]
  simp only [Option.bind_some]
  rw [expect_append]
  simp only [Option.bind_some]
  rw [number_pctZero 3 _ ht]
  simp only [Option.bind_some]
  rw [show ∀ r, (d.summary ++ r).take 6 = d.summary from fun r => rfl]
  unfold ADirent.summary
  simp only [List.getElem?_cons_zero, List.getElem?_cons_succ]
  rw [mark_eq (by decide), mark_eq (by decide), mark_eq (by decide), mark_eq (by decide), mark_eq (by decide), mark_eq (by decide)]
  rfl

/-- the line of a DOS 3.3 entry that is not deleted -/
theorem readDos33_line (d : DDirent) (hd : d.deleted = false) (hb : d.filename.length ≤ 30) {t : List Char} (ht : NoDigit t) :
    readDos33 (d.line ++ t) = some (⟨d.fileNum, d.locked, some (typeToText33 d.ftype), d.numSectors, noBlanks (latin1 d.filename), d.track.toNat,
      d.sector.toNat⟩, t) := by
  have e : d.line ++ t = lineHead d.fileNum d.summary ++ (pctZero 3 d.numSectors ++ ([' '] ++ (pctLeft 30 (latin1 d.filename) ++ ([' '] ++
      (pctZero 3 d.track.toNat ++ ([' '] ++ (pctZero 3 d.sector.toNat ++ t))))))) := by
    unfold DDirent.line
    simp only [List.append_assoc]
  have hsum : d.summary = [mark d.locked '*' ' ', typeToText33 d.ftype] := by unfold DDirent.summary; rw [hd]; rfl
  unfold readDos33
  rw [e, readHead_lineHead, hsum]
  simp only [Option.bind_eq_bind, Option.bind_some]
  rw [show ∀ (x y : Char) r, (([x, y] : List Char) ++ r).drop 2 = r from fun _ _ _ => rfl, expect_append]
  simp only [Option.bind_some]
  rw [number_pctZero 3 _ (by exact noDigit_cons (by rfl))]
  simp only [Option.bind_some]
  rw [expect_append]
  simp only [Option.bind_some]
  rw [column_pctLeft (by unfold latin1; rw [List.length_map]; exact hb)]
  simp only [Option.bind_some]
  rw [expect_append]
  simp only [Option.bind_some]
  rw [number_pctZero 3 _ (by exact noDigit_cons (by rfl))]
  simp only [Option.bind_some]
  rw [expect_append]
  simp only [Option.bind_some]
  rw [number_pctZero 3 _ ht]
  simp only [Option.bind_some]
  rw [show ∀ (x y : Char) r, (([x, y] : List Char) ++ r).take 2 = [x, y] from fun _ _ _ => rfl]
  simp only [List.getElem?_cons_zero, List.getElem?_cons_succ]
  rw [mark_eq (by decide)]
  rfl

/-- the line of a SpartaDOS entry -/
theorem readSparta_line (d : SDirent) {a b c x y z : UInt8} (hs : d.stamp = [a, b, c, x, y, z]) (hb : d.basename.length ≤ 8) (he : d.ext.length ≤ 3)
    {t : List Char} (ht : NoDigit t) : readSparta (d.line ++ t) = some (⟨d.fileNum, d.openedOutput, d.isDir, d.inUse, d.deleted, d.locked,
      d.startingSector, noBlanks (latin1 d.basename), noBlanks (latin1 d.ext), d.length, [a.toNat, b.toNat, c.toNat, x.toNat, y.toNat, z.toNat]⟩, t) := by
  have e : d.line ++ t = lineHead d.fileNum d.summary ++ (pctLeft 8 (latin1 d.basename) ++ (pctLeft 3 (latin1 d.ext) ++
      ([' ', ' '] ++ (List.replicate (8 - (pctD d.length).length) ' ' ++ (pctD d.length ++ ([' ', ' '] ++ (pctD a.toNat ++ (['/'] ++ (pctD b.toNat ++
      (['/'] ++ (pctD c.toNat ++ ([' '] ++ (pctD x.toNat ++ ([':'] ++ (pctD y.toNat ++ ([':'] ++ (pctD z.toNat ++ t))))))))))))))))) := by
    unfold SDirent.line pctRight
    rw [hs]
    unfold stampText
    simp only [List.append_assoc]
    rfl
  have hsum : ∀ r, d.summary ++ r = [mark d.openedOutput 'o' '.', mark d.isDir 'D' '.', mark d.inUse 'u' '.', mark d.deleted 'd' '.', mark d.locked '*' ' '] ++
      ([' '] ++ (pctZero 3 d.startingSector ++ r)) := by
    intro r; unfold SDirent.summary; simp only [List.append_assoc]; rfl
  unfold readSparta
  rw [e, readHead_lineHead, hsum]
  simp only [Option.bind_eq_bind, Option.bind_some]
  rw [show ∀ (u v w x y : Char) r, (([u, v, w, x, y] : List Char) ++ r).drop 5 = r from fun _ _ _ _ _ _ => rfl, expect_append]
  simp only [Option.bind_some]
  rw [number_pctZero 3 _ (by exact noDigit_cons (by rfl))]
  simp only [Option.bind_some]
  rw [expect_append]
  simp only [Option.bind_some]
  rw [column_pctLeft (by unfold latin1; rw [List.length_map]; exact hb)]
  simp only [Option.bind_some]
  rw [column_pctLeft (by unfold latin1; rw [List.length_map]; exact he)]
  simp only [Option.bind_some]
  rw [expect_append]
  simp only [Option.bind_some]
  rw [dropBlanks _ (pctD_head _ _), signed_pctD _ (by exact noDigit_cons (by rfl))]
  simp only [Option.bind_some]
  rw [expect_append]
  simp only [Option.bind_some]
  rw [number_pctD _ (by exact noDigit_cons (by rfl))]
  simp only [Option.bind_some]
  rw [expect_append]
  simp only [Option.bind_some]
  rw [number_pctD _ (by exact noDigit_cons (by rfl))]
  simp only [Option.bind_some]
  rw [expect_append]
  simp only [Option.bind_some]
  rw [number_pctD _ (by exact noDigit_cons (by rfl))]
  simp only [Option.bind_some]
  rw [expect_append]
  simp only [Option.bind_some]
  rw [number_pctD _ (by exact noDigit_cons (by rfl))]
  simp only [Option.bind_some]
  rw [expect_append]
  simp only [Option.bind_some]
  rw [number_pctD _ (by exact noDigit_cons (by rfl))]
  simp only [Option.bind_some]
  rw [expect_append]
  simp only [Option.bind_some]
  rw [number_pctD _ ht]
  simp only [Option.bind_some]
  rw [show ∀ (u v w x y : Char) r, (([u, v, w, x, y] : List Char) ++ r).take 5 = [u, v, w, x, y] from fun _ _ _ _ _ _ => rfl]
  simp only [List.getElem?_cons_zero, List.getElem?_cons_succ]
  rw [mark_eq (by decide), mark_eq (by decide), mark_eq (by decide), mark_eq (by decide), mark_eq (by decide)]
  rfl

/-! ### checksums -/

theorem pctHex_length {n : Nat} (h : n < 2 ^ 32) : (pctHex n).length = 8 := by
  have : (Nat.toDigits 16 n).length ≤ 8 := (Nat.length_toDigits_le_iff (by decide) (by decide)).mpr h
  unfold pctHex
  rw [List.length_append, List.length_replicate]
  omega

theorem valueOf_pctHex (n : Nat) : valueOf 16 (pctHex n) = n := by
  unfold pctHex
  rw [valueOf_zeros, valueOf_digits (by decide) (by decide)]

theorem crc32_lt (b : Bytes) : crc32 b < 2 ^ 32 := BitVec.isLt _

theorem readSum_crc (b : Bytes) : readSum ([' ', ' '] ++ pctHex (crc32 b)) = some (crc32 b) := by
  unfold readSum
  rw [expect_append]
  simp only [Option.bind_eq_bind, Option.bind_some]
  rw [if_pos (pctHex_length (crc32_lt b)), valueOf_pctHex]

theorem readCrc_line (n : List Char) (b : Bytes) : readCrc (n ++ [':', ' '] ++ pctHex (crc32 b)) = some (n, crc32 b) := by
  have hl := pctHex_length (crc32_lt b)
  have h0 : (n ++ [':', ' '] ++ pctHex (crc32 b)).length - 10 = n.length := by
    simp only [List.length_append, hl, List.length_cons, List.length_nil]; omega
  unfold readCrc
  simp only [h0]
  rw [List.append_assoc, List.drop_left, List.take_left, if_pos (by rfl)]
  rw [← List.drop_drop, List.drop_left]
  rw [show ([':', ' '] ++ pctHex (crc32 b)).drop 2 = pctHex (crc32 b) from rfl, valueOf_pctHex]

end Atr
