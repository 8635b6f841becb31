import Verif.Spec.Outcome
import Verif.Props.ProgramFiles
import Verif.Props.Display
/-! # C92: runs end with a message and not with an exception -/
namespace Atr

variable {W : World} {k : ExeKind} {P : Char → Opts → Cmd → FMap → Prop}

/-- the image `b` is recognised, its files and its map of free sectors can be read, and commands within the limits `P` only fail for lack of
room -/
structure Sound (W : World) (k : ExeKind) (P : Char → Opts → Cmd → FMap → Prop) (M : FMap) (b : Bytes) : Prop where
  detects : ∃ i t, detect W.libs b = .ok (i, t) ∧ i.isDisk = true ∧ i.exeDefault = .ok (some k) ∧ i.vtoc = .ok () ∧ ∀ e ∈ i.listing, ∃ d, e.2 = .ok d
  full : ∀ t o c, P t o c M → (Cmd.run (imageDriver W.libs t) o c b).1 = .ok () ∨ (Cmd.run (imageDriver W.libs t) o c b).1 = .error .notEnoughSpace
  remove : ∀ o ns, (Cmd.run (imageDriver W.libs 'B') o (.remove ns) b).1 = .ok ()
  shred : ∀ o, (Cmd.run (imageDriver W.libs 'B') o .shred b).1 = .ok ()

theorem crcLoop_ok (names : List Bytes) : ∀ (l : List (Bytes × Except Err Bytes)), (∀ e ∈ l, ∃ d, e.2 = .ok d) → crcLoop names l = .ok () := by
  intro l
  induction l with
  | nil => intro _; rfl
  | cons e l ih =>
    intro h
    unfold crcLoop
    obtain ⟨d, hd⟩ := h e (by simp)
    rw [hd]
    simp only
    rw [ih fun x hx => h x (by simp [hx]), ite_self]

theorem getFile_lists {n : Nat} {b d : Bytes} {e : DDirent} (h : e.getFile n b = .ok d) : ∃ x, e.tsMap n b = .ok x := by
  unfold DDirent.getFile at h
  cases ht : e.tsMap n b with
  | ok x => exact ⟨x, rfl⟩
  | error x =>
    rw [ht] at h
    split at h <;> cases h

/-- a list that shows everything needs no more than the contents of the files -/
theorem listed_ok {i : Image} (sums more : Bool) (h : ∀ e ∈ i.listing, ∃ d, e.2 = .ok d) : ∀ e ∈ i.listed sums more, ∃ d, e.2 = .ok d := by
  have key : ∀ x ∈ i.listing.zip i.metaReads, x.2 = .ok () := by
    cases i with
    | dos33 m s =>
      have hl : (Image.dos33 m s).listing = m.files.map fun d => (d.filename, d.getFile m.maxSectors m.bytes) := by
        show List.map _ (List.map _ _) = _
        rw [List.map_map]; rfl
      have hr : (Image.dos33 m s).metaReads = m.files.map fun d => (d.tsMap m.maxSectors m.bytes).map fun _ => () := rfl
      intro x hx
      rw [hl, hr, List.zip_map'] at hx
      rw [hl] at h
      obtain ⟨e, he, rfl⟩ := List.mem_map.mp hx
      obtain ⟨d, hd⟩ := h _ (List.mem_map_of_mem he)
      obtain ⟨y, hy⟩ := getFile_lists hd
      simp only [hy]
      rfl
    | _ =>
      intro x hx
      obtain ⟨e, -, he⟩ := List.mem_map.mp (List.of_mem_zip hx).2
      exact he.symm
  intro e he
  obtain ⟨x, hx, rfl⟩ := List.mem_map.mp he
  obtain ⟨d, hd⟩ := h x.1 (List.of_mem_zip hx).1
  simp only [listReads, hd, key x hx]
  cases sums <;> cases more <;> exact ⟨_, rfl⟩

theorem extractLoop_ok (o : XOpts) : ∀ (l : List (Bytes × Except Err Bytes)) (s : Host), (∀ e ∈ l, ∃ d, e.2 = .ok d) → (extractLoop o l s).1 = .ok () := by
  intro l
  induction l with
  | nil => intro _ _; rfl
  | cons e l ih =>
    intro s h
    obtain ⟨d, hd⟩ := h e (by simp)
    have : ∃ s', extractOne o e s = (.ok (), s') := by
      unfold extractOne
      rw [hd]
      simp only
      split
      · exact ⟨_, rfl⟩
      · split <;> exact ⟨_, rfl⟩
    obtain ⟨s', hs⟩ := this
    unfold extractLoop
    rw [hs]
    exact ih s' fun x hx => h x (by simp [hx])

theorem actsAs_ok {h : Host} {name : Bytes} {r : Except Err Unit × Bytes} {y : Except CErr Unit × Host} (ha : ActsAs h name r y) (hr : r.1 = .ok ()) :
    y.1 = .ok () := by rw [ha.1, hr]; rfl

theorem sound_run {name b : Bytes} (hn : name ≠ [0x2e]) {M : FMap} {h : Host} (hb : h.files.get name = some b) (s : Sound W k P M b)
    {dry : Bool} {c : Command} (hc : c.onDisk = true) (hl : ∀ t o c', Run.asked k W h name ⟨dry, name, c⟩ = some (t, o, c') → P t o c' M) :
    (c.main W dry name h).1 = .ok () ∨ ∃ e, c.main W dry name h = (.error (.py e), h) ∧ Excuse W h k c e := by
  obtain ⟨i, t, hi, hdisk, hexe, hvt, hlist⟩ := s.detects
  have hmain := main_image (W := W) (dry := dry) (c := c) hc hn hb hi
  have room : ∀ t o c', P t o c' M → ActsAs h name (c'.run (imageDriver W.libs t) o b) (c.main W dry name h) → c.Atomic name → Excuse W h k c .notEnoughSpace →
      (c.main W dry name h).1 = .ok () ∨ ∃ e, c.main W dry name h = (.error (.py e), h) ∧ Excuse W h k c e := by
    intro t o c' hp ha hat hx
    rcases s.full t o c' hp with h1 | h1
    · exact .inl (actsAs_ok ha h1)
    · have e1 : (c.main W dry name h).1 = .error (.py .notEnoughSpace) := by rw [ha.1, h1]; rfl
      exact .inr ⟨_, Prod.ext e1 (C82_error W dry name c h hat e1), hx⟩
  cases c with
  | create | boot => cases hc
  | segments => left; rw [hmain]; rfl
  | list sums more names =>
    left
    rw [hmain]
    unfold Command.onImage
    simp only
    rw [crcLoop_ok _ _ (listed_ok sums more hlist)]
    rfl
  | crc names =>
    left
    rw [hmain]
    unfold Command.onImage
    simp only
    rw [crcLoop_ok _ _ hlist]
    rfl
  | extract x names =>
    left
    rw [hmain]
    unfold Command.onImage
    simp only
    rw [if_neg (by rw [hdisk]; simp)]
    have : (extractFiles { x with dryRun := dry } i.listing names h).1 = .ok () := by
      unfold extractFiles
      refine extractLoop_ok _ _ _ fun e he => ?_
      obtain ⟨h1, -⟩ := mem_select he
      exact hlist e h1
    revert this
    generalize extractFiles _ _ _ _ = y
    obtain ⟨r, s'⟩ := y
    rintro rfl
    rfl
  | vtoc clear =>
    left
    cases clear with
    | false =>
      rw [hmain]
      unfold Command.onImage
      simp only
      rw [hvt]
      rfl
    | true =>
      have := C82_clear (dry := dry) hn hb hi
      rw [hvt] at this
      exact actsAs_ok this (s.shred _)
  | delete force names => exact .inl (actsAs_ok (C82_delete hn hb hi) (s.remove _ _))
  | add force ft paths =>
    by_cases hp : ∀ p ∈ paths, h.files.get p ≠ none
    · have hask : Run.asked k W h name ⟨dry, name, .add force ft paths⟩ = some (filetypeChar ft, { force := force, dryRun := dry },
          .add (paths.map fun p => (baseName p, (h.files.get p).getD []))) := by
        unfold Run.asked filetypeChar; rw [if_pos rfl]; simp only; rw [if_pos hp]
        rfl
      have ha := C82_add (dry := dry) (force := force) (ft := ft) (paths := paths) (content := fun p => (h.files.get p).getD []) hn hb hi hdisk
        (fun p hp' => by
          cases hg : h.files.get p with
          | none => exact absurd hg (hp p hp')
          | some d => rfl)
      exact room _ _ _ (hl _ _ _ hask) ha hn .addFull
    · obtain ⟨q, hq⟩ := Classical.not_forall.mp hp
      obtain ⟨hq1, hq2⟩ := Classical.not_imp.mp hq
      have hq2 := Classical.not_not.mp hq2
      obtain ⟨⟨e, he⟩, hh'⟩ := C82_add_missing (dry := dry) (force := force) (ft := ft) hn hb hi hq1 hq2
      have : ∃ e', e = .py e' := by
        rw [hmain] at he
        unfold Command.onImage at he
        simp only at he
        split at he
        · exact ⟨_, (Except.error.inj he).symm⟩
        · revert he
          generalize addHost _ _ _ _ _ _ = y
          obtain ⟨r, s'⟩ := y
          intro he
          cases r with
          | error e' => exact ⟨_, (Except.error.inj he).symm⟩
          | ok c => cases c <;> cases he
      obtain ⟨e', rfl⟩ := this
      exact .inr ⟨e', Prod.ext he hh', .missing hq1 hq2⟩
  | assemble force a output =>
    cases hbuild : a.build W h with
    | error e =>
      refine .inr ⟨e, ?_, .args hbuild⟩
      rw [hmain]
      unfold Command.onImage
      simp only
      rw [hbuild]
    | ok x =>
      obtain ⟨sg, run⟩ := x
      have hmk : makeExe (some k) output sg run = createExecutable ((exeKind output).getD k) output sg run := by
        unfold makeExe
        cases exeKind output <;> rfl
      cases hx : createExecutable ((exeKind output).getD k) output sg run with
      | error e =>
        refine .inr ⟨e, ?_, .make hbuild hx⟩
        rw [hmain]
        unfold Command.onImage
        simp only
        rw [hbuild]
        simp only
        rw [hexe]
        simp only
        rw [hmk, hx]
      | ok x =>
        have hask : Run.asked k W h name ⟨dry, name, .assemble force a output⟩ = some ('B', { force := force, dryRun := dry }, .add [(output, x)]) := by
          unfold Run.asked; rw [if_pos rfl]; simp only; rw [hbuild]; simp only; rw [hx]
        exact room _ _ _ (hl _ _ _ hask) (C82_assemble hn hb hi hbuild hexe (hmk.trans hx)) trivial .asmFull

theorem removeLoop_good {σ : Type} {D : Driver σ} {R : σ → FMap → Prop} {o : Opts} (f1 : ∀ {m M n}, R m M → n ∈ M.keys → D.find m n = .ok ())
    (f2 : ∀ {m M n}, R m M → n ∉ M.keys → D.find m n = .error .fileNotFound)
    (f3 : ∀ {m M n}, R m M → n ∈ M.keys → ∃ m', D.delete n m = (.ok (), m') ∧ R m' (M.del n)) :
    ∀ (ns : List Bytes) (ch : Bool) (m : σ) (M : FMap), R m M → ∃ c m', removeLoop D o ns ch m = (.ok c, m') := by
  intro ns
  induction ns with
  | nil => intro ch m M _; exact ⟨_, _, rfl⟩
  | cons n ns ih =>
    intro ch m M r
    unfold removeLoop
    by_cases hn : n ∈ M.keys
    · rw [f1 r hn]
      simp only
      split
      · exact ih _ _ _ r
      · obtain ⟨m', e, r'⟩ := f3 r hn
        rw [e]
        exact ih _ _ _ r'
    · rw [f2 r hn]
      exact ih _ _ _ r

theorem run_remove_good {σ : Type} {D : Driver σ} {R : σ → FMap → Prop} {o : Opts} (f1 : ∀ {m M n}, R m M → n ∈ M.keys → D.find m n = .ok ())
    (f2 : ∀ {m M n}, R m M → n ∉ M.keys → D.find m n = .error .fileNotFound)
    (f3 : ∀ {m M n}, R m M → n ∈ M.keys → ∃ m', D.delete n m = (.ok (), m') ∧ R m' (M.del n))
    {b : Bytes} {m : σ} {M : FMap} (hl : D.load b = .ok m) (r : R m M) (ns : List Bytes) : (Cmd.run D o (.remove ns) b).1 = .ok () := by
  obtain ⟨c, m', e⟩ := removeLoop_good (o := o) f1 f2 f3 ns false m M r
  unfold Cmd.run
  rw [hl]
  simp only
  rw [show Cmd.exec D o (.remove ns) m = removeLoop D o ns false m from rfl, e]
  cases c <;> rfl

theorem run_shred_good {σ : Type} {D : Driver σ} {o : Opts} {b : Bytes} {m : σ} (hl : D.load b = .ok m) (hs : ∃ m', D.shred m = (.ok (), m')) :
    (Cmd.run D o .shred b).1 = .ok () := by
  obtain ⟨m', e⟩ := hs
  unfold Cmd.run
  rw [hl]
  simp only
  unfold Cmd.exec
  by_cases hd : o.dryRun = true
  · simp only [if_pos hd]
  · simp only [if_neg hd]
    rw [e]

theorem sound_atari {hd : AHeader} (hmax : hd.maxSectors < 1280) {M : FMap} {b : Bytes} (hh : AtariDisk W.libs hd M b) :
    Sound W .xex AtariLegal M b := by
  obtain ⟨m, segs, t, hopen, hi⟩ := stores_detect hh
  obtain ⟨m', ds, h1, h2, h3, h4, h5⟩ := id hh.1
  rw [hopen] at h1
  cases h1
  have r : Rep hd m M := ⟨ds, h2, h4, h5⟩
  have hrun := fun t o c => (C80_atari (t := t) (detect_load hi) o c).2.1
  rw [h3] at hrun
  refine ⟨⟨_, t, hi, rfl, rfl, ?_, ?_⟩, ?_, ?_, ?_⟩
  · show m.getVtocObject.map _ = _
    obtain ⟨c, e⟩ := mounted_iff.mp h2
    rw [e, getVtocObject_eq c]
    rfl
  · intro e he
    obtain ⟨x, -, rfl⟩ := List.mem_map.mp (h5.mem_iff.mp he)
    exact ⟨_, rfl⟩
  · intro t o c hl
    rw [hrun]
    rcases (run_rep (o := o) hh.1 hmax hl).2 with h | ⟨h, -⟩
    · exact .inl h
    · exact .inr h
  · intro o ns
    rw [hrun]
    exact run_remove_good (R := Rep hd) Rep.find_mem Rep.find_not Rep.delete hopen r ns
  · intro o
    rw [hrun]
    obtain ⟨m', e, -⟩ := r.shred 0 hmax
    exact run_shred_good hopen ⟨m', e⟩

theorem sound_dos33 {cat : List Nat} {M : FMap} {b : Bytes} (hh : Dos33Disk W.libs cat M b) (hz : W.libs.zip b = .ok none) :
    Sound W .bsave (Dos33Legal cat) M b := by
  obtain ⟨m, segs, t, hopen, hi⟩ := detect33 hh hz
  obtain ⟨m', ds, h1, h2, h3, h4⟩ := id hh.1
  rw [hopen] at h1
  cases h1
  have r : Rep33 cat m M := ⟨ds, h2, h4⟩
  have hrun := fun t o c => (C80_dos33 (t := t) (detect_load hi) o c).2.1
  rw [h3] at hrun
  have S := sim33 (t := 'B') (by decide) cat
  refine ⟨⟨_, t, hi, rfl, rfl, ?_, ?_⟩, ?_, ?_, ?_⟩
  · show m.getVtocMap.map _ = _
    obtain ⟨c, e⟩ := mounted33_iff.mp h2
    rw [e, getVtocMap33]
    rfl
  · intro e he
    obtain ⟨x, -, rfl⟩ := List.mem_map.mp (h4.mem_iff.mp he)
    exact ⟨_, rfl⟩
  · intro t o c hl
    rw [hrun]
    rcases C14_only_full (o := o) hl.1 hh.1 hl.2 with h | ⟨h, -⟩
    · exact .inl h
    · exact .inr h
  · intro o ns
    rw [hrun]
    exact run_remove_good (R := Rep33 cat) S.find_mem S.find_not S.delete hopen r ns
  · intro o
    rw [hrun]
    obtain ⟨m', e, -⟩ := S.shred r
    exact run_shred_good hopen ⟨m', e⟩

/-- **C92, Atari DOS.** Any command on a sound Atari DOS disk, within its limits, ends normally, or for one of the reasons of `Excuse` with
nothing changed. -/
theorem C92_atari {hd : AHeader} (hmax : hd.maxSectors < 1280) {name : Bytes} (hn : name ≠ [0x2e]) {M : FMap} {h : Host}
    (hs : Stores W.libs hd name M h) {dry : Bool} {c : Command} (hc : c.onDisk = true)
    (hl : ∀ t o c', Run.asked .xex W h name ⟨dry, name, c⟩ = some (t, o, c') → c'.Legal o M) :
    (c.main W dry name h).1 = .ok () ∨ ∃ e, c.main W dry name h = (.error (.py e), h) ∧ Excuse W h .xex c e := by
  obtain ⟨b, hb, hh⟩ := hs
  exact sound_run hn hb (sound_atari hmax hh) hc hl

/-- **C92, DOS 3.3.** The same for DOS 3.3 disks. -/
theorem C92_dos33 {cat : List Nat} {name : Bytes} (hn : name ≠ [0x2e]) {M : FMap} {h : Host}
    (hs : StoresAs (Dos33Disk W.libs cat) name M h) (hz : ∀ b, h.files.get name = some b → W.libs.zip b = .ok none) {dry : Bool} {c : Command}
    (hc : c.onDisk = true) (hl : ∀ t o c', Run.asked .bsave W h name ⟨dry, name, c⟩ = some (t, o, c') → t ≠ 'T' ∧ c'.LegalG Fits33 (7 * (cat.length - 1)) o M) :
    (c.main W dry name h).1 = .ok () ∨ ∃ e, c.main W dry name h = (.error (.py e), h) ∧ Excuse W h .bsave c e := by
  obtain ⟨b, hb, hh⟩ := hs
  exact sound_run hn hb (sound_dos33 hh (hz b hb)) hc hl

/-- `add` reads and adds the files before the missing one -/
theorem addHost_missing {σ : Type} {D : Driver σ} {o : Opts} {h : Host} {content : Bytes → Bytes} {q : Bytes} {B : List Bytes} (hq : h.files.get q = none) :
    ∀ (A : List Bytes) (c : Bool) (m : σ), (∀ p ∈ A, h.files.get p = some (content p)) →
    (addHost D o h (A ++ q :: B) c m).1 = match (addLoop D o (A.map fun p => (baseName p, content p)) c m).1 with
      | .error e => .error e
      | .ok _ => .error .ioError := by
  intro A
  induction A with
  | nil =>
    intro c m _
    rw [List.nil_append]
    unfold addHost Host.read
    rw [hq]
    rfl
  | cons p A ih =>
    intro c m hp
    rw [List.cons_append, List.map_cons]
    unfold addHost addLoop
    have hr : h.read p = .ok (content p) := by unfold Host.read; rw [hp p (by simp)]
    rw [hr]
    simp only
    generalize saveFile D o (baseName p) (content p) m = y
    obtain ⟨r, s⟩ := y
    cases r with
    | error e => rfl
    | ok c => exact ih _ _ fun q hq => hp q (by simp [hq])

/-- **C92, a missing file.** If a file given to `add` is missing and those before it are within the limits, the run ends with the error of the
operating system, or for lack of room before; nothing is saved. -/
theorem C92_missing {name b : Bytes} (hn : name ≠ [0x2e]) {M : FMap} {h : Host} (hb : h.files.get name = some b) (s : Sound W k P M b)
    {dry force : Bool} {ft : List Char} {A B : List Bytes} {q : Bytes} (hA : ∀ p ∈ A, h.files.get p ≠ none) (hq : h.files.get q = none)
    (hl : P (filetypeChar ft) ⟨force, dry⟩ (.add (A.map fun p => (baseName p, (h.files.get p).getD []))) M) :
    (Command.add force ft (A ++ q :: B)).main W dry name h = (.error (.py .ioError), h) ∨
    (Command.add force ft (A ++ q :: B)).main W dry name h = (.error (.py .notEnoughSpace), h) := by
  obtain ⟨i, t, hi, hdisk, -⟩ := s.detects
  have hmiss := addHost_missing (D := imageDriver W.libs (filetypeChar ft)) (o := ⟨force, dry⟩) (B := B) (content := fun p => (h.files.get p).getD []) hq A false i
    (fun p hp => by
      cases hg : h.files.get p with
      | none => exact absurd hg (hA p hp)
      | some d => rfl)
  have hfull := s.full _ _ _ hl
  rw [run_finished hi, show Cmd.exec (imageDriver W.libs (filetypeChar ft)) ⟨force, dry⟩ (.add (A.map fun p => (baseName p, (h.files.get p).getD []))) i =
    addLoop (imageDriver W.libs (filetypeChar ft)) ⟨force, dry⟩ (A.map fun p => (baseName p, (h.files.get p).getD [])) false i from rfl] at hfull
  rw [main_image rfl hn hb hi]
  unfold Command.onImage
  simp only
  rw [if_neg (by rw [hdisk]; simp)]
  revert hmiss hfull
  generalize addHost (imageDriver W.libs (filetypeChar ft)) ⟨force, dry⟩ h (A ++ q :: B) false i = y
  generalize addLoop (imageDriver W.libs (filetypeChar ft)) ⟨force, dry⟩ (A.map fun p => (baseName p, (h.files.get p).getD [])) false i = z
  obtain ⟨r, s'⟩ := y
  obtain ⟨r', s''⟩ := z
  intro hmiss hfull
  simp only at hmiss
  cases r' with
  | error e =>
    rcases hfull with h1 | h1
    · cases h1
    · cases h1
      subst hmiss
      exact .inr rfl
  | ok c =>
    subst hmiss
    exact .inl rfl

/-! ### files that are not recognised -/

theorem main_unopened {dry : Bool} {name b : Bytes} {c : Command} {h : Host} {e : CErr} (hc : c.onDisk = true) (hn : name ≠ [0x2e])
    (hb : h.files.get name = some b) (hi : detect W.libs b = .error e) :
    c.main W dry name h = if e.reported then (.ok (), h) else (.error e, h) := by
  have key : (if name = dotName then c.onLocal W dry h
    else
      match h.files.get name with
      | none => (.ok (), h)
      | some b =>
        match detect W.libs b with
        | .error e => if e.reported then (.ok (), h) else (.error e, h)
        | .ok (i, _) => c.onImage W dry name i h) = if e.reported then (.ok (), h) else (.error e, h) := by
    rw [if_neg (show ¬ name = dotName from hn), hb]
    simp only
    rw [hi]
  cases c with
  | create | boot => cases hc
  | list | crc | segments | vtoc | extract | add | delete | assemble => exact key

theorem reported_iff (e : CErr) : e.reported = true ↔ e ∈ toldErrors := by
  unfold toldErrors
  cases e with
  | py e => cases e <;> simp [CErr.reported]
  | ext e => cases e <;> simp [CErr.reported]

/-- **C92, unknown files.** A missing file, and one that is not recognised or refused by a decompressor with an error of the operating system, are
reported with a message by all commands, and nothing changes. -/
theorem C92_told {dry : Bool} {name : Bytes} {c : Command} {h : Host} (hc : c.onDisk = true) (hn : name ≠ [0x2e])
    (hu : h.files.get name = none ∨ ∃ b e, h.files.get name = some b ∧ detect W.libs b = .error e ∧ e ∈ toldErrors) :
    c.main W dry name h = (.ok (), h) := by
  rcases hu with hu | ⟨b, e, hb, hi, he⟩
  · have key : (if name = dotName then c.onLocal W dry h
      else
        match h.files.get name with
        | none => (.ok (), h)
        | some b =>
          match detect W.libs b with
          | .error e => if e.reported then (.ok (), h) else (.error e, h)
          | .ok (i, _) => c.onImage W dry name i h) = (.ok (), h) := by
      rw [if_neg (show ¬ name = dotName from hn), hu]
    cases c with
    | create | boot => cases hc
    | list | crc | segments | vtoc | extract | add | delete | assemble => exact key
  · rw [main_unopened hc hn hb hi, if_pos ((reported_iff e).mpr he)]

/-- **C92, refuted.** Any other exception of the detection ends every command with a traceback, also those that only look. -/
theorem C92_refuted_detect {dry : Bool} {name b : Bytes} {c : Command} {h : Host} {e : CErr} (hc : c.onDisk = true) (hn : name ≠ [0x2e])
    (hb : h.files.get name = some b) (hi : detect W.libs b = .error e) (he : e ∉ toldErrors) : c.main W dry name h = (.error e, h) := by
  rw [main_unopened hc hn hb hi, if_neg (fun h => he ((reported_iff e).mp h))]

/-! ### images without a file system -/

/-- the commands that do something with the files of an image `i` on the machine `h` -/
def Command.usesFiles (W : World) (h : Host) : Command → Prop
  | .vtoc _ => True
  | .extract x names => x.all = false ∧ names ≠ []
  | .add _ ft paths => ft = [] ∨ ∃ p ps, paths = p :: ps ∧ h.files.get p ≠ none
  | .delete _ names => names ≠ []
  | .assemble _ a _ => ∃ x, a.build W h = .ok x
  | _ => False

/-- **C92, refuted for executables.** Atari executables and BSAVE files are recognised, but every command that uses the files of a disk ends with an
`AttributeError`; the others do nothing. -/
theorem C92_refuted_executables {dry : Bool} {name b : Bytes} {c : Command} {h : Host} {i : Image} {t : Mime} (hn : name ≠ [0x2e])
    (hb : h.files.get name = some b) (hi : detect W.libs b = .ok (i, t)) (hx : i.isDisk = false) (hc : c.usesFiles W h) :
    c.main W dry name h = (.error (.py .attributeError), h) := by
  have hd : c.onDisk = true := by cases c <;> first | rfl | exact hc.elim
  rw [main_image hd hn hb hi]
  have hfind : ∀ t n, Image.find t i n = .error .attributeError := by
    intro t n
    cases i <;> first | rfl | cases hx
  have hexe : i.exeDefault = .error .attributeError := by cases i <;> first | rfl | cases hx
  have hvt : i.vtoc = .error .attributeError := by cases i <;> first | rfl | cases hx
  cases c with
  | list | crc | segments | create | boot => exact hc.elim
  | vtoc clear =>
    unfold Command.onImage
    simp only
    rw [hvt]
  | extract x names =>
    obtain ⟨h1, h2⟩ := hc
    unfold Command.onImage
    simp only
    rw [if_pos (by rw [hx, h1]; cases names <;> first | rfl | exact absurd rfl h2)]
  | add force ft paths =>
    unfold Command.onImage
    simp only
    split
    · rfl
    · next hft =>
      rcases hc with rfl | ⟨p, ps, rfl, hp⟩
      · exact absurd (by rw [hx]; rfl) hft
      · cases hg : h.files.get p with
        | none => exact absurd hg hp
        | some d =>
          unfold addHost Host.read
          rw [hg]
          simp only
          unfold saveFile
          rw [show (imageDriver W.libs (filetypeChar ft)).find i (baseName p) = .error .attributeError from hfind _ _]
          rfl
  | delete force names =>
    cases names with
    | nil => exact absurd rfl hc
    | cons n ns =>
      unfold Command.onImage removeLoop
      simp only
      rw [show (imageDriver W.libs 'B').find i n = .error .attributeError from hfind _ _]
      rfl
  | assemble force a output =>
    obtain ⟨⟨segs, run⟩, hb⟩ := hc
    unfold Command.onImage
    simp only
    rw [hb]
    simp only
    rw [hexe]

/-- **C92, refuted for `vtoc`.** On a KBoot disk, a boot disk and a disk without known format `vtoc` ends with an `IndexError`, on a cartridge, a ROM
and a MAME archive with an `AttributeError`. -/
theorem C92_refuted_vtoc {dry clear : Bool} {name b : Bytes} {h : Host} {i : Image} {t : Mime} (hn : name ≠ [0x2e])
    (hb : h.files.get name = some b) (hi : detect W.libs b = .ok (i, t)) :
    ((∃ m s, i = .kboot m s ∨ i = .boot m s ∨ i = .disk m s) → (Command.vtoc clear).main W dry name h = (.error (.py .indexError), h)) ∧
    ((∃ m s r, i = .cart m s r) ∨ (∃ m s, i = .mame m s) ∨ (∃ m, i = .rom m) → (Command.vtoc clear).main W dry name h = (.error (.py .attributeError), h)) := by
  rw [main_image rfl hn hb hi]
  constructor
  · rintro ⟨m, s, rfl | rfl | rfl⟩ <;> rfl
  · rintro (⟨m, s, r, rfl⟩ | ⟨m, s, rfl⟩ | ⟨m, rfl⟩) <;> rfl

/-! ### examples -/

/-- five bytes are no image: all commands say so -/
example (c : Command) (hc : c.onDisk = true) (h : Host) (hb : h.files.get (ascii "X") = some [1, 2, 3, 4, 5]) :
    c.main tripWorld false (ascii "X") h = (.ok (), h) :=
  C92_told hc (by decide) (.inr ⟨_, _, hb, detect_small.2.2, by simp [toldErrors]⟩)

/-- adding a file to a program, and looking at its sectors -/
example (d : Bytes) : let h : Host := { files := [(ascii "A.XEX", sampleXexFile), (ascii "A.TXT", d)] }
    (Command.add false [] [ascii "A.TXT"]).main tripWorld false (ascii "A.XEX") h = (.error (.py .attributeError), h) ∧
    (Command.vtoc false).main tripWorld false (ascii "A.XEX") h = (.error (.py .attributeError), h) ∧
    (Command.list true true []).main tripWorld false (ascii "A.XEX") h = (.ok (), h) := by
  have hd : ∃ l t, detect tripWorld.libs sampleXexFile = .ok (.xex l, t) := by
    obtain ⟨l, hl⟩ := load_sampleXex
    unfold loadImage at hl
    split at hl
    · next t e => cases hl; exact ⟨_, _, e⟩
    · cases hl
    · cases hl
  obtain ⟨l, t, hd⟩ := hd
  refine ⟨?_, ?_, ?_⟩
  · exact C92_refuted_executables (b := sampleXexFile) (by decide) (by rfl) hd rfl (.inl rfl)
  · exact C92_refuted_executables (b := sampleXexFile) (by decide) (by rfl) hd rfl trivial
  · rw [main_image (b := sampleXexFile) rfl (by decide) (by rfl) hd]
    rfl

/-- a run with a missing file on the blank disk -/
example : let h : Host := { files := [(ascii "D.ATR", sdDisk), (ascii "A.TXT", dataA)] }
    (Command.add false [] [ascii "A.TXT", ascii "B.TXT"]).main tripWorld false (ascii "D.ATR") h = (.error (.py .ioError), h) ∨
    (Command.add false [] [ascii "A.TXT", ascii "B.TXT"]).main tripWorld false (ascii "D.ATR") h = (.error (.py .notEnoughSpace), h) := by
  intro h
  refine C92_missing (A := [ascii "A.TXT"]) (B := []) (b := sdDisk) (by decide) (by rfl) (sound_atari (W := tripWorld) (hd := sdH) (M := []) (by decide) ⟨holds_sd, atariFile_sd⟩) ?_ ?_ ?_
  · intro p hp
    rw [List.mem_singleton.mp hp]
    show some dataA ≠ none
    simp
  · rfl
  · exact ⟨⟨by decide, by decide⟩, dataA_ne, by decide, trivial⟩

end Atr
