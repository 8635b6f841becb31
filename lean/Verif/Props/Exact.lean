import Verif.Props.Outcome
import Verif.Props.Text

/-! # Names, letters, blanks: details the larger theorems leave open

C80 (which names an image that can not be changed has), C59 (lower case), C36 (blanks around numbers). -/

namespace Atr

/-! ### C80: the names -/

/-- **C80, names.** Images that can not be written to know exactly the names that `list` shows: the one program of a KBoot disk, the
files of a SpartaDOS disk, nothing on the others.  Executables can not even be asked. -/
theorem C80_names {L : Libs} {t : Char} {i : Image} (hw : ¬ i.Writable) (n : Bytes) :
    (imageDriver L t).find i n =
      match i with
      | .xex _ | .bin _ => .error .attributeError
      | .kboot .. => if n = [0x4b, 0x42, 0x4f, 0x4f, 0x54, 0x2e, 0x58, 0x45, 0x58] then .ok () else .error .fileNotFound
      | .sparta m _ => if ∃ d ∈ m.files, d.filename = n then .ok () else .error .fileNotFound
      | _ => .error .fileNotFound := by
  cases i <;> first
    | exact absurd trivial hw
    | rfl
    | skip
  · rename_i m s
    show (if n = kbootName then _ else _) = _
    rw [show kbootName = [0x4b, 0x42, 0x4f, 0x4f, 0x54, 0x2e, 0x58, 0x45, 0x58] by decide +kernel]
  · rename_i m s
    show (if m.files.any (fun d => d.filename == n) then _ else _) = _
    by_cases h : ∃ d ∈ m.files, d.filename = n
    · obtain ⟨d, h1, h2⟩ := h
      simp only
      rw [if_pos (List.any_eq_true.mpr ⟨d, h1, by rw [h2]; exact beq_self_eq_true n⟩), if_pos ⟨d, h1, h2⟩]
    · simp only
      rw [if_neg (fun hc => by
        obtain ⟨d, h1, h2⟩ := List.any_eq_true.mp hc
        exact h ⟨d, h1, eq_of_beq h2⟩), if_neg h]

/-- asking for a name and listing agree -/
theorem C80_names_listed {L : Libs} {t : Char} {i : Image} (hw : ¬ i.Writable) (hd : i.isDisk = true) (n : Bytes) :
    ((imageDriver L t).find i n = .ok () ↔ n ∈ i.listing.map (·.1)) ∧
    ((imageDriver L t).find i n = .error .fileNotFound ↔ n ∉ i.listing.map (·.1)) := by
  cases i <;> first
    | exact absurd trivial hw
    | cases hd; done
    | (refine ⟨⟨fun h => ?_, fun h => ?_⟩, ⟨fun _ h => ?_, fun _ => rfl⟩⟩ <;> cases h; done)
    | skip
  · rename_i m s
    have e : (imageDriver L t).find (.kboot m s) n = if n = kbootName then .ok () else .error .fileNotFound := rfl
    rw [e, show (Image.kboot m s).listing.map (·.1) = [kbootName] from rfl, List.mem_singleton]
    by_cases h : n = kbootName
    · simp [h]
    · simp [h]
  · rename_i m s
    have e : (imageDriver L t).find (.sparta m s) n = if m.files.any (fun d => d.filename == n) then .ok () else .error .fileNotFound := rfl
    have e2 : n ∈ (Image.sparta m s).listing.map (·.1) ↔ m.files.any (fun d => d.filename == n) = true := by
      show n ∈ (m.files.map fun d => (d.filename, d.getFile m.hdr m.bytes)).map (·.1) ↔ _
      rw [List.map_map, List.mem_map, List.any_eq_true]
      constructor
      · rintro ⟨d, h1, h2⟩; exact ⟨d, h1, by rw [← h2]; exact beq_self_eq_true _⟩
      · rintro ⟨d, h1, h2⟩; exact ⟨d, h1, eq_of_beq h2⟩
    rw [e, e2]
    by_cases h : m.files.any (fun d => d.filename == n) = true
    · simp [h]
    · simp [h]

/-- **C80, removing by name.** Removing a listed file from an image that can not be written to stops with an exception, removing any
other name is reported as done; the file stays as it is. -/
theorem C80_remove_listed {L : Libs} {t : Char} {f : Bytes} {i : Image} {o : Opts} (h : loadImage L f = .ok i) (hw : ¬ i.Writable)
    (hd : i.isDisk = true) (ho : o.dryRun = false) (n : Bytes) :
    (Cmd.remove [n]).run (imageDriver L t) o f = (if n ∈ i.listing.map (·.1) then .error .typeError else .ok (), f) := by
  rw [C80_remove h hw n]
  by_cases hn : n ∈ i.listing.map (·.1)
  · rw [((C80_names_listed (L := L) (t := t) hw hd n).1).mpr hn, if_pos hn]
    simp [ho]
  · rw [((C80_names_listed (L := L) (t := t) hw hd n).2).mpr hn, if_neg hn]

example : (imageDriver magicLibs 'B').find (.kboot { hdr := {}, bytes := [], exe := [1] } []) [0x4b] = .error .fileNotFound := by
  rw [C80_names id]
  decide

/-! ### C59: lower case -/

/-- the capital letters of Latin-1 with their small letters: A-Z, then À-Þ without the multiplication sign -/
def capitals : List (Nat × Nat) :=
  [(65, 97), (66, 98), (67, 99), (68, 100), (69, 101), (70, 102), (71, 103), (72, 104), (73, 105), (74, 106), (75, 107), (76, 108), (77, 109),
   (78, 110), (79, 111), (80, 112), (81, 113), (82, 114), (83, 115), (84, 116), (85, 117), (86, 118), (87, 119), (88, 120), (89, 121), (90, 122),
   (192, 224), (193, 225), (194, 226), (195, 227), (196, 228), (197, 229), (198, 230), (199, 231), (200, 232), (201, 233), (202, 234), (203, 235),
   (204, 236), (205, 237), (206, 238), (207, 239), (208, 240), (209, 241), (210, 242), (211, 243), (212, 244), (213, 245), (214, 246), (216, 248),
   (217, 249), (218, 250), (219, 251), (220, 252), (221, 253), (222, 254)]

theorem lower_table : ∀ n : Fin 256, (lowerByte (UInt8.ofNat n.val)).toNat = (capitals.lookup n.val).getD n.val := by decide +kernel

/-- **C59, lower case.** With `-l` the name of the extracted file is the name on the disk with each capital letter of the table
replaced by its small letter and every other character kept. -/
theorem C59_lower (o : XOpts) (ho : o.lower = true) (hd : o.dir = none) (n : Bytes) :
    (o.path n).map UInt8.toNat = n.map fun b => (capitals.lookup b.toNat).getD b.toNat := by
  unfold XOpts.path
  simp only [ho, if_true, hd, List.map_map]
  apply List.map_congr_left
  intro b _
  have := lower_table ⟨b.toNat, b.toNat_lt⟩
  simp only [UInt8.ofNat_toNat] at this
  exact this

example : ({ lower := true } : XOpts).path [0x41, 0x2e, 0x5a, 0x5b] = [0x61, 0x2e, 0x7a, 0x5b] := by decide

/-! ### C36: blanks -/

/-- the ASCII characters that count as blanks -/
def blanks : List Nat := [9, 10, 11, 12, 13, 28, 29, 30, 31, 32]

theorem blank_iff (c : Char) : isPySpace c = true ↔ c.toNat ∈ blanks := by
  unfold isPySpace blanks
  simp only [Bool.or_eq_true, beq_iff_eq, Bool.and_eq_true, decide_eq_true_eq, List.mem_cons, List.not_mem_nil, or_false]
  omega

theorem dropWhile_pre {α} {p : α → Bool} : ∀ (l r : List α), (∀ x ∈ l, p x = true) → (l ++ r).dropWhile p = r.dropWhile p := by
  intro l
  induction l with
  | nil => intro r _; rfl
  | cons a l ih =>
    intro r h
    rw [List.cons_append, List.dropWhile_cons, if_pos (h a (by simp)), ih r fun x hx => h x (by simp [hx])]

theorem dropWhile_all {α} {p : α → Bool} : ∀ (l : List α), (∀ x ∈ l, p x = true) → l.dropWhile p = [] := by
  intro l h
  have := dropWhile_pre l [] h
  rw [List.append_nil] at this
  exact this

theorem dropWhile_append_some {α} {p : α → Bool} : ∀ (l r : List α), (∃ x ∈ l, p x = false) → (l ++ r).dropWhile p = l.dropWhile p ++ r := by
  intro l
  induction l with
  | nil => rintro r ⟨x, hx, _⟩; cases hx
  | cons a l ih =>
    rintro r ⟨x, hx, hp⟩
    rw [List.cons_append, List.dropWhile_cons, List.dropWhile_cons]
    cases ha : p a with
    | true =>
      simp only [if_true]
      apply ih
      rcases List.mem_cons.mp hx with rfl | hx
      · rw [ha] at hp; cases hp
      · exact ⟨x, hx, hp⟩
    | false => simp

theorem strip_around (pre post s : List Char) (h1 : ∀ c ∈ pre, isPySpace c = true) (h2 : ∀ c ∈ post, isPySpace c = true) :
    pyStrip (pre ++ s ++ post) = pyStrip s := by
  unfold pyStrip
  rw [List.append_assoc, dropWhile_pre pre _ h1]
  by_cases hs : ∃ c ∈ s, isPySpace c = false
  · rw [dropWhile_append_some s post hs, List.reverse_append, dropWhile_pre _ _ fun c hc => h2 c (List.mem_reverse.mp hc)]
  · have ha : ∀ c ∈ s, isPySpace c = true := fun c hc => by
      cases h : isPySpace c with
      | true => rfl
      | false => exact absurd ⟨c, hc, h⟩ hs
    rw [dropWhile_pre s post ha, dropWhile_all s ha, dropWhile_all post h2]

/-- **C36, blanks.** Blanks around the digits do not matter: in front of the sign and digits (behind the mark of the base, if there is
one) and at the end. -/
theorem C36_blanks (base : Nat) (pre post s : List Char) (h1 : ∀ c ∈ pre, c.toNat ∈ blanks) (h2 : ∀ c ∈ post, c.toNat ∈ blanks) :
    pyInt base (pre ++ s ++ post) = pyInt base s := by
  unfold pyInt
  rw [strip_around pre post s (fun c hc => (blank_iff c).mpr (h1 c hc)) fun c hc => (blank_iff c).mpr (h2 c hc)]

theorem C36_blanks_marked (dec : Bool) (pre post s : List Char) (h1 : ∀ c ∈ pre, c.toNat ∈ blanks) (h2 : ∀ c ∈ post, c.toNat ∈ blanks) :
    textToInt ('$' :: (pre ++ s ++ post)) dec = textToInt ('$' :: s) dec ∧ textToInt ('#' :: (pre ++ s ++ post)) dec = textToInt ('#' :: s) dec ∧
    textToInt ('%' :: (pre ++ s ++ post)) dec = textToInt ('%' :: s) dec :=
  ⟨C36_blanks 16 pre post s h1 h2, C36_blanks 10 pre post s h1 h2, C36_blanks 2 pre post s h1 h2⟩

example : textToInt ['$', ' ', '1', 'f', '\n'] true = .ok 31 := by decide +kernel

end Atr
