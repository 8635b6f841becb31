import Verif.Spec.Program
import Verif.Props.Images
import Verif.Props.Extract
/-! # C82: what a run of the program does to the files of the machine -/
namespace Atr

theorem Changed.refl {S : Bytes → Prop} (h : Host) : Changed S h h := ⟨fun _ _ => rfl, fun _ x => x, fun _ x => x⟩

theorem Changed.trans {S : Bytes → Prop} {h1 h2 h3 : Host} (a : Changed S h1 h2) (b : Changed S h2 h3) : Changed S h1 h3 :=
  ⟨fun p hp => (b.same p hp).trans (a.same p hp), fun p hp => b.kept p (a.kept p hp), fun d hd => b.dirs d (a.dirs d hd)⟩

theorem Changed.mono {S T : Bytes → Prop} {h h' : Host} (a : Changed S h h') (st : ∀ p, S p → T p) : Changed T h h' :=
  ⟨fun p hp => a.same p fun hs => hp (st p hs), a.kept, a.dirs⟩

theorem Changed.write {S : Bytes → Prop} (h : Host) {p : Bytes} (d : Bytes) (hp : S p) : Changed S h (h.write p d) := by
  refine ⟨fun q hq => ?_, fun q hq => ?_, fun _ x => x⟩
  · show (h.files.put p d).get q = _
    rw [get_put, if_neg (fun e => hq (by rw [e]; exact hp))]
  · show (h.files.put p d).get q ≠ none
    rw [get_put]
    split
    · simp
    · exact hq

theorem changed_saveTo {S : Bytes → Prop} {h : Host} {name : Bytes} (x : Except Err Bool × Image) (hn : S name) :
    Changed S h (saveTo h name x).2 := by
  obtain ⟨r, i⟩ := x
  cases r with
  | error e => exact .refl h
  | ok c => cases c with
    | false => exact .refl h
    | true => exact .write h _ hn

theorem changed_extractLoop {S : Bytes → Prop} {o : XOpts} : ∀ (es : List (Bytes × Except Err Bytes)) (h : Host),
    (∀ e ∈ es, S (o.path e.1)) → Changed S h (extractLoop o es h).2 := by
  intro es
  induction es with
  | nil => intro h _; exact .refl h
  | cons e es ih =>
    intro h hs
    have hd : Changed S h (o.makeDir h) := by
      refine ⟨fun p _ => by rw [makeDir_files], fun p hp => by rw [makeDir_files]; exact hp, fun d hd => ?_⟩
      unfold XOpts.makeDir
      split
      · exact hd
      · split
        · exact hd
        · exact List.mem_cons_of_mem _ hd
    have h1 : Changed S h (extractOne o e h).2 := by
      refine hd.trans ?_
      unfold extractOne
      simp only
      split
      · exact .refl _
      · split
        · exact .refl _
        · split
          · exact .refl _
          · exact Changed.write _ _ (hs e (by simp))
    unfold extractLoop
    cases hx : extractOne o e h with
    | mk r s =>
      rw [hx] at h1
      cases r with
      | error _ => exact h1
      | ok _ => exact h1.trans (ih s fun e he => hs e (by simp [he]))

theorem mem_select {o : XOpts} {l : List (Bytes × Except Err Bytes)} {names : List Bytes} {e} (h : e ∈ o.select l names) :
    e ∈ l ∧ (o.all = true ∨ e.1 ∈ names) := by
  unfold XOpts.select at h
  split at h
  · next ha => exact ⟨h, .inl ha⟩
  · obtain ⟨n, h1, h2⟩ := List.mem_filterMap.mp h
    refine ⟨List.mem_of_find?_eq_some h2, .inr ?_⟩
    have := List.find?_some h2
    rw [beq_iff_eq] at this
    rw [this]; exact h1

theorem changed_localSave {S : Bytes → Prop} (o : Opts) (h : Host) (n d : Bytes) (hn : S n) : Changed S h (localSave o h n d) := by
  unfold localSave
  split
  · exact .refl h
  · split
    · exact .refl h
    · exact .write h d hn

theorem changed_localAdd {S : Bytes → Prop} (o : Opts) : ∀ (ps : List Bytes) (h : Host), (∀ q ∈ ps, S (baseName q)) →
    Changed S h (localAdd o ps h).2 := by
  intro ps
  induction ps with
  | nil => intro h _; exact .refl h
  | cons p ps ih =>
    intro h hs
    unfold localAdd
    cases h.read p with
    | error e => exact .refl h
    | ok d => exact (changed_localSave o h _ d (hs p (by simp))).trans (ih _ fun q hq => hs q (by simp [hq]))

theorem shown_host (h : Host) (r : Except Err Unit) : (shown h r).2 = h := by cases r <;> rfl

theorem changed_onImage {W : World} {dry : Bool} {name : Bytes} {i : Image} {h : Host} {b : Bytes} {k} {c : Command}
    (hn : name ≠ [0x2e]) (hb : h.files.get name = some b) (hi : detect W.libs b = .ok (i, k)) :
    Changed (fun p => c.Targets W h name p) h (c.onImage W dry name i h).2 := by
  cases c with
  | list => unfold Command.onImage; rw [shown_host]; exact .refl h
  | crc names => unfold Command.onImage; rw [shown_host]; exact .refl h
  | segments => exact .refl h
  | vtoc clear =>
    unfold Command.onImage
    simp only
    cases i.vtoc with
    | error e => exact .refl h
    | ok _ =>
      cases clear with
      | false => exact .refl h
      | true => exact changed_saveTo _ ⟨rfl, rfl, hn⟩
  | extract x names =>
    unfold Command.onImage
    simp only
    split
    · exact .refl h
    · have := changed_extractLoop (S := fun p => (Command.extract x names).Targets W h name p) (o := { x with dryRun := dry })
        (XOpts.select { x with dryRun := dry } i.listing names) h (by
          intro e he
          obtain ⟨h1, h2⟩ := mem_select he
          exact ⟨hn, b, i, k, e.1, hb, hi, List.mem_map.mpr ⟨e, h1, rfl⟩, h2, rfl⟩)
      unfold extractFiles
      revert this
      generalize extractLoop _ _ h = y
      intro this
      obtain ⟨r, s⟩ := y
      cases r <;> exact this
  | add force ft paths =>
    unfold Command.onImage
    simp only
    split
    · exact .refl h
    · refine changed_saveTo _ ?_
      show if name = [0x2e] then _ else name = name
      rw [if_neg hn]
  | delete force names => exact changed_saveTo _ ⟨rfl, hn⟩
  | assemble force a output =>
    unfold Command.onImage
    simp only
    split
    · exact .refl h
    · split
      · exact .refl h
      · split
        · exact .refl h
        · refine changed_saveTo _ ?_
          show name = if name = [0x2e] then output else name
          rw [if_neg hn]
  | create => exact .refl h
  | boot => exact .refl h

theorem changed_onLocal {W : World} {dry : Bool} {h : Host} {c : Command} :
    Changed (fun p => c.Targets W h [0x2e] p) h (c.onLocal W dry h).2 := by
  cases c with
  | list | crc | segments | vtoc | delete | create | boot => exact .refl h
  | extract x names =>
    unfold Command.onLocal
    simp only
    split <;> exact .refl h
  | add force ft paths =>
    unfold Command.onLocal
    simp only
    split
    · exact .refl h
    · have := changed_localAdd (S := fun p => (Command.add force ft paths).Targets W h [0x2e] p) { force := force, dryRun := dry } paths h (by
        intro q hq
        show if ([0x2e] : Bytes) = [0x2e] then ∃ q' ∈ paths, baseName q = baseName q' else baseName q = [0x2e]
        rw [if_pos rfl]; exact ⟨q, hq, rfl⟩)
      revert this
      generalize localAdd _ paths h = y
      intro this
      obtain ⟨r, s⟩ := y
      cases r <;> exact this
  | assemble force a output =>
    unfold Command.onLocal
    simp only
    split
    · exact .refl h
    · split
      · exact .refl h
      · exact changed_localSave _ h _ _ (if_pos rfl).symm

theorem changed_createImage {S : Bytes → Prop} {W : World} {dry force : Bool} {template name : Bytes} {h : Host} (hs : S name) :
    Changed S h (createImage W dry force template name h).2 := by
  unfold createImage
  split
  · split
    · exact .refl h
    · split
      · exact .refl h
      · split
        · exact .refl h
        · split <;> exact .write h _ hs
  · exact .refl h

theorem changed_bootImage {S : Bytes → Prop} {W : World} {a : AsmArgs} {name : Bytes} {h : Host} (hs : S name) :
    Changed S h (bootImage W a name h).2 := by
  unfold bootImage
  split
  · exact .refl h
  · split
    · exact .refl h
    · exact .refl h
    · split
      · exact .refl h
      · exact .write h _ hs

/-- the three ways through `run` -/
theorem main_cases {W : World} {dry : Bool} {name : Bytes} {h : Host} (c : Command) (P : Except CErr Unit × Host → Prop)
    (hcreate : ∀ f t, c = .create f t → P (createImage W dry f t name h))
    (hboot : ∀ f a, c = .boot f a → P (bootImage W a name h))
    (hlocal : name = [0x2e] → P (c.onLocal W dry h))
    (hnone : P (.ok (), h))
    (herr : ∀ b e, h.files.get name = some b → detect W.libs b = .error e → e.reported = false → P (.error e, h))
    (himg : ∀ b i k, name ≠ [0x2e] → h.files.get name = some b → detect W.libs b = .ok (i, k) → P (c.onImage W dry name i h)) :
    P (c.main W dry name h) := by
  have key : P (if name = dotName then c.onLocal W dry h
    else
      match h.files.get name with
      | none => (.ok (), h)
      | some b =>
        match detect W.libs b with
        | .error e => if e.reported then (.ok (), h) else (.error e, h)
        | .ok (i, _) => c.onImage W dry name i h) := by
    split
    · next e => exact hlocal e
    · next e =>
      split
      · exact hnone
      · next b hb =>
        split
        · next er hd =>
          split
          · exact hnone
          · next hr => exact herr b er hb hd (by simpa using hr)
        · next i k hd => exact himg b i k e hb hd
  cases c with
  | create f t => exact hcreate f t rfl
  | boot f a => exact hboot f a rfl
  | list | crc | segments | vtoc | extract | add | delete | assemble => exact key

/-- **C82, footprint.** A run of the program only writes to the paths its command names: the image, the places where files are
extracted to, and for the image "." the files of the current directory that are given.  No file is ever removed, whatever the
files contain and whether or not the run fails. -/
theorem C82_footprint (W : World) (dry : Bool) (name : Bytes) (c : Command) (h : Host) :
    Changed (fun p => c.Targets W h name p) h (c.main W dry name h).2 := by
  refine main_cases c (fun r => Changed (fun p => c.Targets W h name p) h r.2) ?_ ?_ ?_ (.refl h) (fun _ _ _ _ _ => .refl h) ?_
  · rintro f t rfl; exact changed_createImage rfl
  · rintro f a rfl; exact changed_bootImage rfl
  · rintro rfl; exact changed_onLocal
  · intro b i k hn hb hi; exact changed_onImage hn hb hi


/-! ### several runs -/

/-- **C82, histories.** Over any sequence of runs no file is removed, and a path that no run names keeps its contents. -/
theorem C82_runs (W : World) : ∀ (rs : List Run) (h : Host) (S : Bytes → Prop),
    (∀ r ∈ rs, ∀ h' p, r.cmd.Targets W h' r.name p → S p) → Changed S h (runs W rs h).2 := by
  intro rs
  induction rs with
  | nil => intro h S _; exact .refl h
  | cons r rs ih =>
    intro h S hs
    exact ((C82_footprint W r.dry r.name r.cmd h).mono fun p hp => hs r (by simp) h p hp).trans
      (ih _ S fun r' hr => hs r' (by simp [hr]))

/-! ### dry runs -/

section
variable {σ : Type} {D : Driver σ} {o : Opts}

theorem saveFile_unsaved (ho : o.dryRun = true) (n d : Bytes) (m : σ) : (saveFile D o n d m).1 ≠ .ok true := by
  have hf : ∀ m, (finishSave D o n d m).1 ≠ .ok true := by
    intro m; unfold finishSave; rw [if_pos ho]; intro h; cases h
  unfold saveFile
  split
  · exact hf m
  · intro h; cases h
  · split
    · split
      · exact hf _
      · intro h; cases h
      · exact hf _
    · intro h; cases h

theorem addHost_dry (ho : o.dryRun = true) (h : Host) : ∀ (ps : List Bytes) (c : Bool) (m : σ), c = false →
    (addHost D o h ps c m).1 ≠ .ok true := by
  intro ps
  induction ps with
  | nil => intro c m hc e; subst hc; cases e
  | cons p ps ih =>
    intro c m hc
    unfold addHost
    split
    · intro e; cases e
    · next d _ =>
      have := saveFile_unsaved (D := D) ho (baseName p) d m
      split
      · intro e; cases e
      · next c' m' hx =>
        rw [hx] at this
        exact ih c' m' (by cases c' with
          | false => rfl
          | true => exact absurd rfl this)

theorem removeLoop_unsaved (ho : o.dryRun = true) : ∀ (ns : List Bytes) (m : σ), (removeLoop D o ns false m).1 ≠ .ok true := by
  intro ns
  induction ns with
  | nil => intro m e; cases e
  | cons n ns ih =>
    intro m
    unfold removeLoop
    split
    · exact ih m
    · intro e; cases e
    · rw [if_pos ho]; exact ih m
end

theorem saveTo_same {h : Host} {name : Bytes} {x : Except Err Bool × Image} (hx : x.1 ≠ .ok true) : (saveTo h name x).2 = h := by
  obtain ⟨r, i⟩ := x
  cases r with
  | error e => rfl
  | ok c => cases c with
    | false => rfl
    | true => exact absurd rfl hx

theorem localAdd_dry {o : Opts} (ho : o.dryRun = true) : ∀ (ps : List Bytes) (h : Host), (localAdd o ps h).2 = h := by
  intro ps
  induction ps with
  | nil => intro h; rfl
  | cons p ps ih =>
    intro h
    unfold localAdd
    cases h.read p with
    | error e => rfl
    | ok d =>
      simp only
      have : localSave o h (baseName p) d = h := by
        unfold localSave
        split <;> rfl
      rw [this]; exact ih h

/-- **C82, dry run (partial).** With `--dry-run` no file changes and no file is made, by any command but `boot`; directories are
only made by `extract -d`. -/
theorem C82_dry_run_partial (W : World) (name : Bytes) (c : Command) (h : Host) (hc : ∀ f a, c ≠ .boot f a) :
    (c.main W true name h).2.files = h.files ∧
    ((∀ x names, c = .extract x names → ∀ d, x.dir = some d → d ∈ h.dirs) → (c.main W true name h).2 = h) := by
  have key : (∀ x names, c ≠ .extract x names) → (c.main W true name h).2 = h := by
    intro hx
    refine main_cases c (fun r => r.2 = h) ?_ ?_ ?_ rfl (fun _ _ _ _ _ => rfl) ?_
    · rintro f t rfl
      unfold createImage
      split
      · rw [if_pos rfl]
      · rfl
    · intro f a e; exact absurd e (hc f a)
    · intro _
      cases c with
      | list | crc | segments | vtoc | delete | create => rfl
      | boot f a => exact absurd rfl (hc f a)
      | extract x names => exact absurd rfl (hx x names)
      | add force ft paths =>
        unfold Command.onLocal
        simp only
        split
        · rfl
        · have := localAdd_dry (o := { force := force, dryRun := true }) rfl paths h
          revert this
          generalize localAdd _ paths h = y
          intro this
          obtain ⟨r, s⟩ := y
          cases r <;> exact this
      | assemble force a output =>
        unfold Command.onLocal
        simp only
        split
        · rfl
        · split
          · rfl
          · unfold localSave
            split
            · rfl
            · rw [if_pos rfl]
    · intro b i k hn hb hi
      cases c with
      | list => unfold Command.onImage; exact shown_host _ _
      | crc => unfold Command.onImage; exact shown_host _ _
      | segments | create => rfl
      | boot f a => exact absurd rfl (hc f a)
      | extract x names => exact absurd rfl (hx x names)
      | vtoc clear =>
        unfold Command.onImage
        simp only
        split
        · rfl
        · split
          · exact saveTo_same (fun e => by cases e)
          · rfl
      | add force ft paths =>
        unfold Command.onImage
        simp only
        split
        · rfl
        · exact saveTo_same (addHost_dry rfl h paths false i rfl)
      | delete force names => exact saveTo_same (removeLoop_unsaved rfl names i)
      | assemble force a output =>
        unfold Command.onImage
        simp only
        split
        · rfl
        · split
          · rfl
          · split
            · rfl
            · exact saveTo_same (saveFile_unsaved rfl _ _ _)
  by_cases hx : ∃ x names, c = .extract x names
  · obtain ⟨x, names, rfl⟩ := hx
    refine main_cases (.extract x names) (fun r => r.2.files = h.files ∧
      ((∀ x' names', Command.extract x names = .extract x' names' → ∀ d, x'.dir = some d → d ∈ h.dirs) → r.2 = h))
      (fun _ _ e => by cases e) (fun _ _ e => by cases e) ?_ ⟨rfl, fun _ => rfl⟩ (fun _ _ _ _ _ => ⟨rfl, fun _ => rfl⟩) ?_
    · intro _
      unfold Command.onLocal
      simp only
      split <;> exact ⟨rfl, fun _ => rfl⟩
    · intro b i k hn hb hi
      unfold Command.onImage
      simp only
      split
      · exact ⟨rfl, fun _ => rfl⟩
      · have h1 := C61_dry_run_partial (o := { x with dryRun := true }) rfl i.listing names h
        revert h1
        generalize extractFiles _ i.listing names h = y
        intro h1
        obtain ⟨r, s⟩ := y
        obtain ⟨e1, e2, e3⟩ := h1
        simp only at e1
        subst e1
        exact ⟨e2, fun hd => e3 fun d hd' => hd x names rfl d hd'⟩
  · have := key fun x names e => hx ⟨x, names, e⟩
    exact ⟨by rw [this], fun _ => this⟩

/-! ### failing runs -/

/-- the commands that save nothing when they fail -/
def Command.Atomic (name : Bytes) : Command → Prop
  | .extract .. | .create .. => False
  | .add .. => name ≠ [0x2e]
  | _ => True

theorem saveTo_error {h : Host} {name : Bytes} {x : Except Err Bool × Image} {e} (hx : (saveTo h name x).1 = .error e) : (saveTo h name x).2 = h := by
  obtain ⟨r, i⟩ := x
  cases r with
  | error e => rfl
  | ok c => cases c with
    | false => rfl
    | true => cases hx

/-- **C82, failing runs.** A run that ends with an exception has changed nothing on the machine, unless it extracts files,
creates an image or copies files into the current directory. -/
theorem C82_error (W : World) (dry : Bool) (name : Bytes) (c : Command) (h : Host) (hc : c.Atomic name) {e : CErr}
    (he : (c.main W dry name h).1 = .error e) : (c.main W dry name h).2 = h := by
  revert he
  refine main_cases c (fun r => r.1 = .error e → r.2 = h) ?_ ?_ ?_ (fun _ => rfl) (fun _ _ _ _ _ _ => rfl) ?_
  · rintro f t rfl; exact hc.elim
  · rintro f a rfl
    unfold bootImage
    split
    · exact fun _ => rfl
    · split
      · exact fun _ => rfl
      · exact fun _ => rfl
      · split
        · exact fun _ => rfl
        · intro x; cases x
  · rintro rfl
    cases c with
    | list | crc | segments | vtoc | delete | create | boot => exact fun _ => rfl
    | extract | add => first | exact hc.elim | exact absurd rfl hc
    | assemble force a output =>
      unfold Command.onLocal
      simp only
      split
      · exact fun _ => rfl
      · split
        · exact fun _ => rfl
        · intro x; cases x
  · intro b i k hn hb hi
    cases c with
    | list => unfold Command.onImage; exact fun _ => shown_host _ _
    | crc => unfold Command.onImage; exact fun _ => shown_host _ _
    | segments | create | boot => exact fun _ => rfl
    | extract => exact hc.elim
    | vtoc clear =>
      unfold Command.onImage
      simp only
      split
      · exact fun _ => rfl
      · split
        · exact saveTo_error
        · exact fun _ => rfl
    | add force ft paths =>
      unfold Command.onImage
      simp only
      split
      · exact fun _ => rfl
      · exact saveTo_error
    | delete force names => exact saveTo_error
    | assemble force a output =>
      unfold Command.onImage
      simp only
      split
      · exact fun _ => rfl
      · split
        · exact fun _ => rfl
        · split
          · exact fun _ => rfl
          · exact saveTo_error

/-! ### overwriting -/

/-- does the command carry `-f`? -/
def Command.forced : Command → Bool
  | .extract x _ => x.force
  | .add f .. | .delete f .. | .assemble f .. | .create f .. | .boot f .. => f
  | _ => false

theorem extractLoop_keeps {o : XOpts} (ho : o.force = false) {p d : Bytes} : ∀ (es : List (Bytes × Except Err Bytes)) (h : Host),
    h.files.get p = some d → (extractLoop o es h).2.files.get p = some d := by
  intro es
  induction es with
  | nil => intro h hp; exact hp
  | cons e es ih =>
    intro h hp
    have h1 : (extractOne o e h).2.files.get p = some d := by
      unfold extractOne
      simp only
      split
      · rw [makeDir_files]; exact hp
      · split
        · rw [makeDir_files]; exact hp
        · split
          · rw [makeDir_files]; exact hp
          · next hk =>
            show ((o.makeDir h).files.put _ _).get p = _
            rw [get_put, if_neg, makeDir_files]
            · exact hp
            · intro e'
              refine hk ⟨?_, ho⟩
              rw [← e', makeDir_files]
              exact keys_get.mpr (by rw [hp]; simp)
    unfold extractLoop
    revert h1
    generalize extractOne o e h = y
    intro h1
    obtain ⟨r, s⟩ := y
    cases r with
    | error _ => exact h1
    | ok _ => exact ih s h1

theorem localSave_keeps {o : Opts} (ho : o.force = false) {h : Host} {n c p d : Bytes} (hp : h.files.get p = some d) :
    (localSave o h n c).files.get p = some d := by
  unfold localSave
  split
  · exact hp
  · next hk =>
    split
    · exact hp
    · show (h.files.put n c).get p = _
      rw [get_put, if_neg]
      · exact hp
      · intro e
        subst e
        exact hk (by rw [hp, ho]; rfl)

theorem localAdd_keeps {o : Opts} (ho : o.force = false) {p d : Bytes} : ∀ (ps : List Bytes) (h : Host),
    h.files.get p = some d → (localAdd o ps h).2.files.get p = some d := by
  intro ps
  induction ps with
  | nil => intro h hp; exact hp
  | cons q ps ih =>
    intro h hp
    unfold localAdd
    cases h.read q with
    | error e => exact hp
    | ok c => exact ih _ (localSave_keeps ho hp)

/-- **C82, no overwriting (partial).** Without `-f` every file that is not the image keeps its contents, and so does the image
under `create`.  (`boot` writes to no other file than the image.) -/
theorem C82_no_force_partial (W : World) (dry : Bool) (name : Bytes) (c : Command) (h : Host) (hf : c.forced = false) {p d : Bytes}
    (hp : h.files.get p = some d) (hc : p ≠ name ∨ name = [0x2e] ∧ (∀ f a, c ≠ .boot f a) ∨ ∃ f t, c = .create f t) :
    (c.main W dry name h).2.files.get p = some d := by
  refine main_cases c (fun r => r.2.files.get p = some d) ?_ ?_ ?_ hp (fun _ _ _ _ _ => hp) ?_
  · rintro f t rfl
    have hf : f = false := hf
    unfold createImage
    split
    · split
      · exact hp
      · split
        · exact hp
        · next hk =>
          have hne : p ≠ name := by
            rintro rfl
            exact hk (by rw [hp, hf]; rfl)
          split
          · exact hp
          · split <;> (show (h.files.put _ _).get p = _; rw [get_put, if_neg hne]; exact hp)
    · exact hp
  · rintro f a rfl
    rcases hc with hc | ⟨-, hc⟩ | ⟨f', t, hc⟩
    · rw [(changed_bootImage (S := fun q => q = name) rfl).same p hc]; exact hp
    · exact absurd rfl (hc f a)
    · cases hc
  · rintro rfl
    cases c with
    | list | crc | segments | vtoc | delete | create | boot => exact hp
    | extract x names =>
      unfold Command.onLocal
      simp only
      split <;> exact hp
    | add force ft paths =>
      unfold Command.onLocal
      simp only
      split
      · exact hp
      · have := localAdd_keeps (o := { force := force, dryRun := dry }) hf paths h hp
        revert this
        generalize localAdd _ paths h = y
        intro this
        obtain ⟨r, s⟩ := y
        cases r <;> exact this
    | assemble force a output =>
      unfold Command.onLocal
      simp only
      split
      · exact hp
      · split
        · exact hp
        · exact localSave_keeps hf hp
  · intro b i k hn hb hi
    by_cases hx : ∃ x names, c = .extract x names
    · obtain ⟨x, names, rfl⟩ := hx
      unfold Command.onImage
      simp only
      split
      · exact hp
      · have := extractLoop_keeps (o := { x with dryRun := dry }) hf (XOpts.select { x with dryRun := dry } i.listing names) h hp
        unfold extractFiles
        revert this
        generalize extractLoop _ _ h = y
        intro this
        obtain ⟨r, s⟩ := y
        cases r <;> exact this
    · by_cases hcr : ∃ f t, c = .create f t
      · obtain ⟨f, t, rfl⟩ := hcr; exact hp
      · have hpn : p ≠ name := by
          rcases hc with hc | ⟨e, -⟩ | hc
          · exact hc
          · exact absurd e hn
          · exact absurd hc hcr
        rw [(changed_onImage (c := c) hn hb hi).same p ?_]
        · exact hp
        · cases c with
          | list | crc | segments => exact id
          | vtoc => exact fun h => hpn h.1
          | delete => exact fun h => hpn h.1
          | create | boot => exact hpn
          | extract x names => exact absurd ⟨x, names, rfl⟩ hx
          | add => intro h; exact hpn (by rw [show Command.Targets W _ name p (.add ..) = (if name = [0x2e] then _ else p = name) from rfl, if_neg hn] at h; exact h)
          | assemble _ _ output => intro h; exact hpn (by rw [show Command.Targets W _ name p (.assemble ..) = (p = if name = [0x2e] then output else name) from rfl, if_neg hn] at h; exact h)


/-! ### what happens to the image -/

/-- the run leaves every file but `name` alone, which has the contents of `r` afterwards, and ends as `r` does -/
def ActsAs (h : Host) (name : Bytes) (r : Except Err Unit × Bytes) (y : Except CErr Unit × Host) : Prop :=
  y.1 = r.1.mapError .py ∧ y.2.dirs = h.dirs ∧ ∀ p, y.2.files.get p = if p = name then some r.2 else h.files.get p

theorem detect_load {L : Libs} {b : Bytes} {i : Image} {k} (hi : detect L b = .ok (i, k)) : loadImage L b = .ok i := by
  unfold loadImage; rw [hi]

/-- the end of a run on an image file -/
def finished (b : Bytes) : Except Err Bool × Image → Except Err Unit × Bytes
  | (.error e, _) => (.error e, b)
  | (.ok false, _) => (.ok (), b)
  | (.ok true, i) => (.ok (), i.bytes)

theorem run_finished {L : Libs} {t : Char} {o : Opts} {c : Cmd} {b : Bytes} {i : Image} {k} (hi : detect L b = .ok (i, k)) :
    c.run (imageDriver L t) o b = finished b (c.exec (imageDriver L t) o i) := by
  rw [run_loaded (show (imageDriver L t).load b = .ok i from detect_load hi)]
  generalize c.exec (imageDriver L t) o i = y
  obtain ⟨r, m⟩ := y
  cases r with
  | error e => rfl
  | ok c => cases c <;> rfl

theorem actsAs_saveTo {h : Host} {name b : Bytes} (hb : h.files.get name = some b) (x : Except Err Bool × Image) :
    ActsAs h name (finished b x) (saveTo h name x) := by
  have same : ∀ p, h.files.get p = if p = name then some b else h.files.get p := by
    intro p
    split
    · next e => rw [e]; exact hb
    · rfl
  obtain ⟨r, i⟩ := x
  cases r with
  | error e => exact ⟨rfl, rfl, same⟩
  | ok c => cases c with
    | false => exact ⟨rfl, rfl, same⟩
    | true => exact ⟨rfl, rfl, fun p => get_put⟩

theorem addHost_read {σ : Type} {D : Driver σ} {o : Opts} {h : Host} {content : Bytes → Bytes} : ∀ (ps : List Bytes) (c : Bool) (m : σ),
    (∀ p ∈ ps, h.files.get p = some (content p)) → addHost D o h ps c m = addLoop D o (ps.map fun p => (baseName p, content p)) c m := by
  intro ps
  induction ps with
  | nil => intro c m _; rfl
  | cons p ps ih =>
    intro c m hp
    have hr : h.read p = .ok (content p) := by unfold Host.read; rw [hp p (by simp)]
    unfold addHost
    rw [hr, List.map_cons]
    unfold addLoop
    simp only
    split
    · next e => rw [e]
    · next c' m' e => rw [e]; exact ih c' m' fun q hq => hp q (by simp [hq])

/-- does the command work on an image that is opened first? -/
def Command.onDisk : Command → Bool
  | .create .. | .boot .. => false
  | _ => true

theorem main_image {W : World} {dry : Bool} {name : Bytes} {c : Command} {h : Host} {b : Bytes} {i : Image} {k}
    (hc : c.onDisk = true) (hn : name ≠ [0x2e]) (hb : h.files.get name = some b)
    (hi : detect W.libs b = .ok (i, k)) : c.main W dry name h = c.onImage W dry name i h := by
  have key : (if name = dotName then c.onLocal W dry h
    else
      match h.files.get name with
      | none => (.ok (), h)
      | some b =>
        match detect W.libs b with
        | .error e => if e.reported then (.ok (), h) else (.error e, h)
        | .ok (i, _) => c.onImage W dry name i h) = c.onImage W dry name i h := by
    rw [if_neg (show ¬ name = dotName from hn), hb]
    simp only
    rw [hi]
  cases c with
  | create | boot => cases hc
  | list | crc | segments | vtoc | extract | add | delete | assemble => exact key

/-- **C82, adding.** `add` on a recognised disk image reads the given files of the machine and does to the image what C80 says
about adding them under their base names. -/
theorem C82_add {W : World} {dry force : Bool} {name : Bytes} {ft : List Char} {paths : List Bytes} {h : Host} {b : Bytes} {i : Image} {k}
    {content : Bytes → Bytes} (hn : name ≠ [0x2e]) (hb : h.files.get name = some b) (hi : detect W.libs b = .ok (i, k)) (hd : i.isDisk = true)
    (hp : ∀ p ∈ paths, h.files.get p = some (content p)) :
    ActsAs h name ((Cmd.add (paths.map fun p => (baseName p, content p))).run (imageDriver W.libs (filetypeChar ft)) ⟨force, dry⟩ b)
      ((Command.add force ft paths).main W dry name h) := by
  rw [main_image rfl hn hb hi]
  rw [run_finished hi]
  unfold Command.onImage Cmd.exec
  simp only
  rw [if_neg (by rw [hd]; simp), addHost_read paths false i hp]
  exact actsAs_saveTo hb _

/-- **C82, a missing file.** If one of the files given to `add` is missing the run fails, and nothing is saved. -/
theorem C82_add_missing {W : World} {dry force : Bool} {name : Bytes} {ft : List Char} {paths : List Bytes} {h : Host} {b : Bytes} {i : Image} {k}
    (hn : name ≠ [0x2e]) (hb : h.files.get name = some b) (hi : detect W.libs b = .ok (i, k)) {q : Bytes} (hq : q ∈ paths)
    (hm : h.files.get q = none) :
    (∃ e, ((Command.add force ft paths).main W dry name h).1 = .error e) ∧ ((Command.add force ft paths).main W dry name h).2 = h := by
  have key : ∃ e, ((Command.add force ft paths).main W dry name h).1 = .error e := by
    rw [main_image rfl hn hb hi]
    unfold Command.onImage
    simp only
    split
    · exact ⟨_, rfl⟩
    · have : ∀ (ps : List Bytes) (c : Bool) (m : Image), q ∈ ps →
          ∃ e, (addHost (imageDriver W.libs (filetypeChar ft)) ⟨force, dry⟩ h ps c m).1 = .error e := by
        intro ps
        induction ps with
        | nil => intro _ _ h; cases h
        | cons p ps ih =>
          intro c m hq
          unfold addHost
          split
          · exact ⟨_, rfl⟩
          · next d hd =>
            split
            · exact ⟨_, rfl⟩
            · refine ih _ _ ?_
              rcases List.mem_cons.mp hq with rfl | hq
              · unfold Host.read at hd; rw [hm] at hd; cases hd
              · exact hq
      obtain ⟨e, he⟩ := this paths false i hq
      revert he
      generalize addHost _ _ _ _ _ _ = y
      intro he
      obtain ⟨r, s⟩ := y
      cases r with
      | error e => exact ⟨_, rfl⟩
      | ok _ => cases he
  obtain ⟨e, he⟩ := key
  exact ⟨⟨e, he⟩, C82_error W dry name _ h hn he⟩

/-- **C82, deleting.** `delete` does to a recognised image what C80 says about deleting; `-f` makes no difference. -/
theorem C82_delete {W : World} {dry force : Bool} {name : Bytes} {names : List Bytes} {h : Host} {b : Bytes} {i : Image} {k}
    (hn : name ≠ [0x2e]) (hb : h.files.get name = some b) (hi : detect W.libs b = .ok (i, k)) :
    ActsAs h name ((Cmd.remove names).run (imageDriver W.libs 'B') { dryRun := dry } b) ((Command.delete force names).main W dry name h) := by
  rw [main_image rfl hn hb hi]
  rw [run_finished hi]
  unfold Command.onImage Cmd.exec
  simp only
  have : ∀ (ns : List Bytes) (c : Bool) (m : Image), removeLoop (imageDriver W.libs 'B') { force := force, dryRun := dry } ns c m =
      removeLoop (imageDriver W.libs 'B') { dryRun := dry } ns c m := by
    intro ns
    induction ns with
    | nil => intro _ _; rfl
    | cons n ns ih => intro c m; unfold removeLoop; simp only [ih]
  rw [this]
  exact actsAs_saveTo hb _

/-- **C82, clearing.** `vtoc -e` does to a recognised image what C80 says about clearing, provided the map of free sectors can be
shown; otherwise it fails and nothing changes. -/
theorem C82_clear {W : World} {dry : Bool} {name : Bytes} {h : Host} {b : Bytes} {i : Image} {k}
    (hn : name ≠ [0x2e]) (hb : h.files.get name = some b) (hi : detect W.libs b = .ok (i, k)) :
    match i.vtoc with
    | .ok _ => ActsAs h name (Cmd.shred.run (imageDriver W.libs 'B') { dryRun := dry } b) ((Command.vtoc true).main W dry name h)
    | .error e => (Command.vtoc true).main W dry name h = (.error (.py e), h) := by
  rw [main_image rfl hn hb hi]
  rw [run_finished hi]
  unfold Command.onImage
  simp only
  cases i.vtoc with
  | ok _ => exact actsAs_saveTo hb _
  | error e => rfl

/-- **C82, assembling.** `assemble` puts the executable made of the given segments into the image under the output name. -/
theorem C82_assemble {W : World} {dry force : Bool} {name output : Bytes} {a : AsmArgs} {h : Host} {b : Bytes} {i : Image} {k}
    {segs : List Seg} {run : Option Nat} {dflt} {x : Bytes} (hn : name ≠ [0x2e]) (hb : h.files.get name = some b)
    (hi : detect W.libs b = .ok (i, k)) (ha : a.build W h = .ok (segs, run)) (hd : i.exeDefault = .ok dflt) (hx : makeExe dflt output segs run = .ok x) :
    ActsAs h name ((Cmd.add [(output, x)]).run (imageDriver W.libs 'B') ⟨force, dry⟩ b) ((Command.assemble force a output).main W dry name h) := by
  rw [main_image rfl hn hb hi]
  rw [run_finished hi]
  unfold Command.onImage
  simp only
  rw [ha]
  simp only
  rw [hd]
  simp only
  rw [hx]
  simp only
  have e : (Cmd.add [(output, x)]).exec (imageDriver W.libs 'B') ⟨force, dry⟩ i = saveFile (imageDriver W.libs 'B') ⟨force, dry⟩ output x i := by
    unfold Cmd.exec addLoop
    simp only
    generalize saveFile (imageDriver W.libs 'B') ⟨force, dry⟩ output x i = y
    obtain ⟨r, m⟩ := y
    cases r <;> rfl
  rw [e]
  exact actsAs_saveTo hb _

/-! ### `boot` -/

/-- **C82, boot.** `boot` overwrites the image, with or without `-f` and even with `--dry-run`. -/
theorem C82_boot {W : World} {dry force : Bool} {name : Bytes} {a : AsmArgs} {h : Host} {make} {s : Seg} {segs : List Seg} {run : Option Nat} {x : Bytes}
    (hm : bootMaker name = some make) (ha : a.build W h = .ok (s :: segs, run)) (hx : make (s :: segs) run = .ok x) :
    (Command.boot force a).main W dry name h = (.ok (), h.write name x) := by
  show bootImage W a name h = _
  unfold bootImage
  rw [hm]
  simp only
  rw [ha]
  simp only
  rw [hx]

/-- text as a file name -/
def ascii (s : String) : Bytes := s.toList.map fun c => UInt8.ofNat c.toNat

/-- a machine with an image and a data file -/
def bootHost : Host := { files := [(ascii "D.ATR", [1, 2, 3]), (ascii "CODE", [0xa9, 0])] }

/-- **C82, refuted.** `--dry-run` does not keep `boot` from overwriting an existing file, and `-f` is not needed either. -/
theorem C82_refuted_dry_run (W : World) : ∃ (c : Command) (h : Host), c.forced = false ∧
    (c.main W true (ascii "D.ATR") h).1 = .ok () ∧ h.files.get (ascii "D.ATR") = some [1, 2, 3] ∧
    (c.main W true (ascii "D.ATR") h).2.files.get (ascii "D.ATR") ≠ some [1, 2, 3] := by
  have hb : (AsmArgs.mk [["CODE@0600".toList]] [] []).build W bootHost = .ok ([{ origin := 0x600, data := [0xa9, 0] }], none) := by rfl
  have hx : ∃ x, createBootImage [{ origin := 0x600, data := [0xa9, 0] }] none = .ok x ∧ 16 ≤ x.length := by
    have : (match createBootImage [{ origin := 0x600, data := [0xa9, 0] }] none with
      | .ok x => decide (16 ≤ x.length)
      | .error _ => false) = true := by decide +kernel
    cases hx : createBootImage [{ origin := 0x600, data := [0xa9, 0] }] none with
    | error e => rw [hx] at this; cases this
    | ok x => rw [hx] at this; exact ⟨x, rfl, by simpa using this⟩
  obtain ⟨x, hx, hl⟩ := hx
  refine ⟨.boot false { data := [["CODE@0600".toList]] }, bootHost, rfl, ?_⟩
  rw [C82_boot (make := createBootImage) (by unfold bootMaker; rw [if_pos (by decide +kernel)]) hb hx]
  refine ⟨rfl, by decide +kernel, ?_⟩
  show (bootHost.files.put _ x).get _ ≠ _
  rw [get_put, if_pos rfl]
  intro e
  cases e
  exact absurd hl (by decide)

end Atr
