import Verif.Model.Args
/-!
# C81: how the arguments are taken apart

The first argument without a leading dash is the disk image; `list` is the default command; a request for help is never taken for
anything else.
-/
namespace Atr

/-- a request for help -/
def Arg.isHelp (a : Arg) : Prop := a = "-h".toList ∨ a = "--help".toList

instance (a : Arg) : Decidable a.isHelp := by unfold Arg.isHelp; infer_instance

theorem dash_of_help {a : Arg} (h : a.isHelp) : a.dash = true := by rcases h with rfl | rfl <;> decide

/-- the arguments that are no options -/
def plainArgs (args : List Arg) : List Arg := args.filter fun a => !a.dash

theorem loop_nonDash : ∀ (l : List Arg) (s : Scan) (i : Nat), (s.loop i l).nonDash = s.nonDash ++ plainArgs l := by
  intro l
  induction l with
  | nil => intro s i; simp [Scan.loop, plainArgs]
  | cons a l ih =>
    intro s i
    unfold Scan.loop
    rw [ih]
    unfold Scan.step plainArgs
    cases h : a.dash with
    | true =>
      simp only [h, if_true, List.filter_cons, Bool.not_true]
      congr 1
      split <;> split <;> rfl
    | false =>
      simp only [h, List.filter_cons, Bool.not_false]
      rw [if_neg (by decide)]
      split <;> simp

theorem loop_help_none : ∀ (l : List Arg) (s : Scan) (i : Nat), (∀ a ∈ l, ¬ a.isHelp) → (s.loop i l).foundHelp = s.foundHelp := by
  intro l
  induction l with
  | nil => intro s i _; rfl
  | cons a l ih =>
    intro s i h
    have ha : ¬ (a = "-h".toList ∨ a = "--help".toList) := h a (by simp)
    unfold Scan.loop
    rw [ih _ _ fun x hx => h x (by simp [hx])]
    unfold Scan.step
    simp only
    rw [if_neg ha]
    split
    · split <;> rfl
    · split <;> rfl

theorem loop_help_some : ∀ (l : List Arg) (s : Scan) (i : Nat), (∃ a ∈ l, a.isHelp) → (i : Int) ≤ (s.loop i l).foundHelp := by
  intro l
  induction l with
  | nil => rintro s i ⟨a, h, -⟩; cases h
  | cons a l ih =>
    rintro s i ⟨x, hx, hh⟩
    unfold Scan.loop
    by_cases hl : ∃ a ∈ l, a.isHelp
    · have := ih (s.step i a) (i + 1) hl
      omega
    · rcases List.mem_cons.mp hx with rfl | hx
      · rw [loop_help_none _ _ _ fun y hy hc => hl ⟨y, hy, hc⟩]
        unfold Scan.step
        rw [if_pos (dash_of_help hh)]
        simp only
        rw [if_pos (show x = "-h".toList ∨ x = "--help".toList from hh)]
        exact Int.le_refl _
      · exact absurd ⟨x, hx, hh⟩ hl

theorem loop_first_keep : ∀ (l : List Arg) (s : Scan) (i : Nat), 1 ≤ i → 0 ≤ s.firstNonDash → (s.loop i l).firstNonDash = s.firstNonDash := by
  intro l
  induction l with
  | nil => intro s i _ _; rfl
  | cons a l ih =>
    intro s i hi hs
    unfold Scan.loop
    have : (s.step i a).firstNonDash = s.firstNonDash := by
      unfold Scan.step
      rw [if_neg (show ¬ i = 0 by omega)]
      simp only
      split
      · split <;> rfl
      · rw [if_neg (by omega)]
    rw [ih _ _ (by omega) (by omega), this]

theorem step_dash {s : Scan} {i : Nat} {a : Arg} (hi : 1 ≤ i) (h : a.dash = true) : (s.step i a).firstNonDash = s.firstNonDash := by
  unfold Scan.step
  rw [if_pos h, if_neg (show ¬ i = 0 by omega)]
  simp only
  split <;> rfl

theorem loop_first_none : ∀ (l : List Arg) (s : Scan) (i : Nat), 1 ≤ i → (∀ a ∈ l, a.dash = true) → (s.loop i l).firstNonDash = s.firstNonDash := by
  intro l
  induction l with
  | nil => intro s i _ _; rfl
  | cons a l ih =>
    intro s i hi h
    unfold Scan.loop
    rw [ih _ _ (by omega) fun x hx => h x (by simp [hx]), step_dash hi (h a (by simp))]

theorem loop_first_some : ∀ (pre : List Arg) (img : Arg) (post : List Arg) (s : Scan) (i : Nat), 1 ≤ i → s.firstNonDash < 0 → (∀ a ∈ pre, a.dash = true) →
    img.dash = false → (s.loop i (pre ++ img :: post)).firstNonDash = i + pre.length := by
  intro pre
  induction pre with
  | nil =>
    intro img post s i hi hs _ him
    rw [List.nil_append]
    unfold Scan.loop
    have : (s.step i img).firstNonDash = i := by
      unfold Scan.step
      rw [him, if_neg (by decide)]
      simp only
      rw [if_pos hs]
    rw [loop_first_keep _ _ _ (by omega) (by omega), this]
    simp
  | cons a pre ih =>
    intro img post s i hi hs hp him
    rw [List.cons_append]
    unfold Scan.loop
    rw [ih img post _ _ (by omega) (by rw [step_dash hi (hp a (by simp))]; exact hs) (fun x hx => hp x (by simp [hx])) him]
    simp only [List.length_cons]
    omega

/-- the three variables after the loop -/
theorem scan_first {pre : List Arg} {img : Arg} {post : List Arg} (hp : ∀ a ∈ pre, a.dash = true) (him : img.dash = false) :
    (Scan.loop {} 0 (pre ++ img :: post)).firstNonDash = pre.length := by
  cases pre with
  | nil =>
    rw [List.nil_append]
    unfold Scan.loop
    have : (Scan.step {} 0 img).firstNonDash = 0 := by
      unfold Scan.step
      rw [him, if_neg (by decide)]
      rfl
    rw [loop_first_keep _ _ _ (by omega) (by omega), this]
    rfl
  | cons a pre =>
    rw [List.cons_append]
    unfold Scan.loop
    have : (Scan.step {} 0 a).firstNonDash = -1 := by
      unfold Scan.step
      rw [if_pos (hp a (by simp)), if_pos rfl]
      simp only
      split <;> rfl
    rw [loop_first_some pre img post _ 1 (by omega) (by omega) (fun x hx => hp x (by simp [hx])) him]
    simp only [List.length_cons]
    omega

theorem scan_first_none {args : List Arg} (h0 : args ≠ []) (hp : ∀ a ∈ args, a.dash = true) : (Scan.loop {} 0 args).firstNonDash = -1 := by
  cases args with
  | nil => exact absurd rfl h0
  | cons a l =>
    unfold Scan.loop
    have : (Scan.step {} 0 a).firstNonDash = -1 := by
      unfold Scan.step
      rw [if_pos (hp a (by simp)), if_pos rfl]
      simp only
      split <;> rfl
    rw [loop_first_none _ _ _ (by omega) (fun x hx => hp x (by simp [hx])), this]

theorem split_args (args : List Arg) : (∀ a ∈ args, a.dash = true) ∨ ∃ pre img post, args = pre ++ img :: post ∧ (∀ a ∈ pre, a.dash = true) ∧ img.dash = false := by
  induction args with
  | nil => exact Or.inl (by simp)
  | cons a l ih =>
    cases h : a.dash with
    | false => exact Or.inr ⟨[], a, l, rfl, by simp, h⟩
    | true =>
      rcases ih with h1 | ⟨pre, img, post, rfl, h2, h3⟩
      · left
        intro x hx
        rcases List.mem_cons.mp hx with rfl | hx
        · exact h
        · exact h1 x hx
      · right
        refine ⟨a :: pre, img, post, rfl, ?_, h3⟩
        intro x hx
        rcases List.mem_cons.mp hx with rfl | hx
        · exact h
        · exact h2 x hx

theorem plain_nil {l : List Arg} : plainArgs l = [] ↔ ∀ a ∈ l, a.dash = true := by
  unfold plainArgs
  rw [List.filter_eq_nil_iff]
  simp

theorem plain_split {pre : List Arg} {img : Arg} {post : List Arg} (hp : ∀ a ∈ pre, a.dash = true) (him : img.dash = false) :
    plainArgs (pre ++ img :: post) = img :: plainArgs post := by
  have h1 := plain_nil.mpr hp
  unfold plainArgs at h1 ⊢
  rw [List.filter_append, h1, List.filter_cons, if_pos (by rw [him]; rfl)]
  rfl

/-- **C81, commands.** Without a request for help, the first argument that is no option is the disk image; all others are passed on in
their order, followed by `list` if none of them is a command or a file name. -/
theorem C81_run {pre : List Arg} {img : Arg} {post : List Arg} (hp : ∀ a ∈ pre, a.dash = true) (him : img.dash = false)
    (hh : ∀ a ∈ pre ++ img :: post, ¬ a.isHelp) :
    ((∀ a ∈ post, a.dash = true) → prepareArgs (pre ++ img :: post) = .ok (.run img (pre ++ post ++ ["list".toList]))) ∧
    ((∃ a ∈ post, a.dash = false) → prepareArgs (pre ++ img :: post) = .ok (.run img (pre ++ post))) := by
  have h1 := scan_first (post := post) hp him
  have h2 := loop_help_none _ {} 0 hh
  have h3 := loop_nonDash (pre ++ img :: post) {} 0
  rw [plain_split hp him] at h3
  have key : prepareArgs (pre ++ img :: post) = .ok (.run img (if (img :: plainArgs post).length = 1 then pre ++ post ++ ["list".toList] else pre ++ post)) := by
    unfold prepareArgs
    rw [if_neg (by simp)]
    simp only
    rw [h1, h2, h3, if_neg (by simp)]
    simp only [Int.toNat_natCast, List.nil_append]
    rw [List.getElem?_append_right (Nat.le_refl _), Nat.sub_self]
    simp only [List.getElem?_cons_zero]
    rw [List.take_left' rfl, List.drop_append, List.drop_of_length_le (by omega), show pre.length + 1 - pre.length = 1 by omega]
    rfl
  rw [key]
  constructor
  · intro h
    rw [plain_nil.mpr h]
    rfl
  · rintro ⟨a, ha, hd⟩
    rw [if_neg]
    intro hc
    have : plainArgs post = [] := by
      simp only [List.length_cons] at hc
      exact List.eq_nil_of_length_eq_zero (by omega)
    rw [plain_nil.mp this a ha] at hd
    cases hd

/-- **C81, options only.** Without a name there is help for the whole program, whatever the options. -/
theorem C81_options {args : List Arg} (h0 : args ≠ []) (hp : ∀ a ∈ args, a.dash = true) : prepareArgs args = .ok (.help ["--help".toList]) := by
  unfold prepareArgs
  rw [if_neg h0]
  simp only
  rw [scan_first_none h0 hp, if_pos (by omega), if_pos (by omega)]

/-- help for the first name, or else for the second one, or else for the program -/
def helpFor (img : Arg) (names : List Arg) : Except Err Prepared :=
  if isCommand img then .ok (.help [img, "--help".toList])
  else match names with
    | [] => .error .indexError
    | c :: _ => .ok (.help (if isCommand c then [c, "--help".toList] else ["--help".toList]))

/-- **C81, help.** With a request for help among the arguments no command is run: what is handed on is a request for help again (for the command that is the
first or second name), but for one case in which the program fails. -/
theorem C81_help {args : List Arg} {img : Arg} {names : List Arg} (hh : ∃ a ∈ args, a.isHelp) (hn : plainArgs args = img :: names) :
    prepareArgs args =
      if (∀ a ∈ args.tail, ¬ a.isHelp) then .ok (.help ["--help".toList])
      else helpFor img names := by
  have h0 : args ≠ [] := by rintro rfl; obtain ⟨a, h, -⟩ := hh; cases h
  rcases split_args args with h1 | ⟨pre, im, post, rfl, h2, h3⟩
  · rw [plain_nil.mpr h1] at hn; cases hn
  have e1 := scan_first (post := post) h2 h3
  have e2 : (Scan.loop {} 0 (pre ++ im :: post)).foundHelp ≥ 0 := loop_help_some _ {} 0 hh
  have e3 := loop_nonDash (pre ++ im :: post) {} 0
  rw [hn] at e3
  unfold prepareArgs
  rw [if_neg h0]
  simp only
  rw [if_pos (Or.inl e2), e3, e1]
  generalize hargs : pre ++ im :: post = args at *
  cases args with
  | nil => exact absurd rfl h0
  | cons a l =>
    simp only [List.nil_append]
    by_cases hl : ∀ a ∈ l, ¬ a.isHelp
    · rw [if_pos (show ∀ x ∈ (a :: l).tail, ¬ x.isHelp from hl), if_pos]
      left
      unfold Scan.loop
      rw [loop_help_none _ _ _ hl]
      have ha : a.isHelp := by
        obtain ⟨x, hx, hx'⟩ := hh
        rcases List.mem_cons.mp hx with rfl | hx
        · exact hx'
        · exact absurd hx' (hl x hx)
      unfold Scan.step
      rw [if_pos (dash_of_help ha)]
      simp only
      rw [if_pos (show a = "-h".toList ∨ a = "--help".toList from ha)]
      rfl
    · rw [if_neg (show ¬ ∀ x ∈ (a :: l).tail, ¬ x.isHelp from hl), if_neg]
      · unfold helpFor
        cases isCommand img
        · cases names with
          | nil => rfl
          | cons c names =>
            simp only [Bool.false_eq_true, if_false]
            split <;> rfl
        · rfl
      · rintro (h | h)
        · have hl' : ∃ x ∈ l, x.isHelp := by
            apply Classical.byContradiction
            intro hc
            exact hl fun x hx hh => hc ⟨x, hx, hh⟩
          have := loop_help_some l (Scan.step {} 0 a) 1 hl'
          have e : Scan.loop {} 0 (a :: l) = (Scan.step {} 0 a).loop 1 l := rfl
          rw [e] at h
          omega
        · omega

/-- **C81, the failure.** The arguments are rejected with an exception (`IndexError`) exactly if there is a request for help behind the first argument and the
only other name is no command. -/
theorem C81_fails (args : List Arg) (e : Err) : prepareArgs args = .error e ↔
    e = .indexError ∧ (∃ a ∈ args.tail, a.isHelp) ∧ ∃ img, plainArgs args = [img] ∧ isCommand img = false := by
  by_cases h0 : args = []
  · subst h0
    constructor
    · intro h; cases h
    · rintro ⟨-, ⟨a, h, -⟩, -⟩; cases h
  by_cases hh : ∃ a ∈ args, a.isHelp
  · cases hn : plainArgs args with
    | nil =>
      rw [C81_options h0 (plain_nil.mp hn)]
      constructor
      · intro h; cases h
      · rintro ⟨-, -, img, h, -⟩; cases h
    | cons img names =>
      rw [C81_help hh hn]
      split
      · rename_i hl
        constructor
        · intro h; cases h
        · rintro ⟨-, ⟨a, h1, h2⟩, -⟩; exact absurd h2 (hl a h1)
      · rename_i hl
        have hl' : ∃ x ∈ args.tail, x.isHelp := by
          apply Classical.byContradiction
          intro hc
          exact hl fun x hx hh => hc ⟨x, hx, hh⟩
        unfold helpFor
        cases hc : isCommand img
        · simp only [Bool.false_eq_true, if_false]
          cases names with
          | nil =>
            constructor
            · intro h; cases h; exact ⟨rfl, hl', img, rfl, hc⟩
            · rintro ⟨rfl, -⟩; rfl
          | cons c names =>
            constructor
            · intro h; cases h
            · rintro ⟨-, -, i, h, -⟩; cases h
        · constructor
          · intro h; cases h
          · rintro ⟨-, -, i, h, h'⟩
            cases h
            rw [hc] at h'
            cases h'
  · have hn : ∀ a ∈ args, ¬ a.isHelp := fun a ha hc => hh ⟨a, ha, hc⟩
    have hno : ∀ e, prepareArgs args ≠ .error e := by
      intro e
      rcases split_args args with h1 | ⟨pre, im, post, rfl, h2, h3⟩
      · rw [C81_options h0 h1]; exact nofun
      · obtain ⟨k1, k2⟩ := C81_run (post := post) h2 h3 hn
        by_cases hp : ∀ a ∈ post, a.dash = true
        · rw [k1 hp]; exact nofun
        · rw [k2]
          · exact nofun
          · apply Classical.byContradiction
            intro hc
            apply hp
            intro a ha
            cases hd : a.dash with
            | true => rfl
            | false => exact absurd ⟨a, ha, hd⟩ hc
    constructor
    · intro h; exact absurd h (hno e)
    · rintro ⟨-, ⟨a, h1, h2⟩, -⟩
      exact absurd h2 (hn a (List.mem_of_mem_tail h1))

/-- **C81, refuted.** That a request for help is always answered is not true: `atrcopy disk.atr --help`, for any name that is no command, fails. -/
theorem C81_refuted_help (img : Arg) (h1 : img.dash = false) (h2 : isCommand img = false) : prepareArgs [img, "--help".toList] = .error .indexError :=
  (C81_fails _ _).mpr ⟨rfl, ⟨_, by simp, Or.inr rfl⟩, img, by simp [plainArgs, h1]; decide, h2⟩

/-- **C81 (partial).** Where it does not fail: with a request for help among the arguments no image is given to the rest of the program. -/
theorem C81_help_partial {args : List Arg} {p : Prepared} (hh : ∃ a ∈ args, a.isHelp) (h : prepareArgs args = .ok p) :
    p = .help ["--help".toList] ∨ ∃ c ∈ args, isCommand c = true ∧ p = .help [c, "--help".toList] := by
  have h0 : args ≠ [] := by rintro rfl; obtain ⟨a, h, -⟩ := hh; cases h
  have hm : ∀ x ∈ plainArgs args, x ∈ args := fun x hx => (List.mem_filter.mp hx).1
  cases hn : plainArgs args with
  | nil =>
    rw [C81_options h0 (plain_nil.mp hn)] at h
    cases h; exact Or.inl rfl
  | cons img names =>
    rw [hn] at hm
    rw [C81_help hh hn] at h
    split at h
    · cases h; exact Or.inl rfl
    unfold helpFor at h
    split at h
    · rename_i hc; cases h; exact Or.inr ⟨img, hm _ (by simp), hc, rfl⟩
    cases names with
    | nil => cases h
    | cons c names =>
      simp only at h
      cases hc : isCommand c
      · rw [hc] at h; cases h; exact Or.inl rfl
      · rw [hc] at h; cases h; exact Or.inr ⟨c, hm _ (by simp), hc, rfl⟩

/-- **C81, the table.** No word stands for two commands, and every word stands for a command that stands for itself. -/
theorem C81_aliases : (reverseAliases.map (·.1)).Nodup ∧ ∀ x ∈ reverseAliases, reverseAliases.lookup x.2 = some x.2 := by decide +kernel

/-! ### examples -/

example : prepareArgs ["-v".toList, "disk.atr".toList] = .ok (.run "disk.atr".toList ["-v".toList, "list".toList]) := by decide
example : prepareArgs ["disk.atr".toList, "--dry-run".toList, "x".toList, "-a".toList] =
    .ok (.run "disk.atr".toList ["--dry-run".toList, "x".toList, "-a".toList]) := by decide
example : prepareArgs ["disk.atr".toList, "create".toList, "-h".toList] = .ok (.help ["create".toList, "--help".toList]) := by decide
example : prepareArgs ["disk.atr".toList, "-h".toList] = .error .indexError := by decide

/-- a file named like a command is taken for the command -/
example : prepareArgs ["v".toList, "-h".toList] = .ok (.help ["v".toList, "--help".toList]) := by decide

end Atr
