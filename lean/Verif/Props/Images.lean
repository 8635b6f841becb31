import Verif.Props.SpartaShred
import Verif.Props.DetectCli
import Verif.Props.DetectDos33
import Verif.Props.Dos33Crash
/-!
# C80: the commands on files of every kind

C69 and C74 are about files that are taken for Atari DOS and DOS 3.3 disks.  Here is what the commands do to all other files.
-/
namespace Atr

/-- the kinds of images with an implementation of `write_file` and `delete_file` that works -/
def Image.Writable : Image → Prop
  | .atari .. | .dos33 .. => True
  | _ => False

/-- the kinds of images that the command may change -/
def Image.Changes (c : Cmd) : Image → Prop
  | .atari .. | .dos33 .. => True
  | .sparta .. => c = .shred
  | _ => False

instance (i : Image) : Decidable i.Writable := by cases i <;> unfold Image.Writable <;> infer_instance

/-- **C80, what is opened.** Whatever a command works on was opened by its own format, from the file or from what the file unpacks
to. -/
theorem C80_opened {L : Libs} {f : Bytes} {i : Image} (h : loadImage L f = .ok i) :
    ∃ c, guessContainer (knownContainers L.dec) f = .ok c ∧ Opened L (c.getD f) i := load_opened h

/-! ### images that can not be written to -/

section
variable {σ : Type} {D : Driver σ} {o : Opts} {m : σ}

/-- deleting and writing fail and leave the image alone -/
structure Frozen (D : Driver σ) (m : σ) : Prop where
  delete : ∀ n, ∃ e, D.delete n m = (.error e, m)
  write : ∀ n d, ∃ e, D.write n d m = (.error e, m)

theorem Frozen.finishSave (h : Frozen D m) (n d : Bytes) : ∃ r, finishSave D o n d m = (r, m) ∧ r ≠ .ok true := by
  unfold Atr.finishSave
  split
  · exact ⟨_, rfl, nofun⟩
  · obtain ⟨e, he⟩ := h.write n d
    rw [he]
    exact ⟨_, rfl, nofun⟩

theorem Frozen.saveFile (h : Frozen D m) (n d : Bytes) : ∃ r, saveFile D o n d m = (r, m) ∧ r ≠ .ok true := by
  unfold Atr.saveFile
  cases D.find m n with
  | error e => cases e <;> first | exact h.finishSave n d | exact ⟨_, rfl, nofun⟩
  | ok _ =>
    simp only
    split
    · obtain ⟨e, he⟩ := h.delete n
      rw [he]
      cases e <;> first | exact h.finishSave n d | exact ⟨_, rfl, nofun⟩
    · exact ⟨_, rfl, nofun⟩

theorem Frozen.addLoop (h : Frozen D m) : ∀ (fs : List (Bytes × Bytes)), ∃ r, addLoop D o fs false m = (r, m) ∧ r ≠ .ok true := by
  intro fs
  induction fs with
  | nil => exact ⟨_, rfl, nofun⟩
  | cons x fs ih =>
    obtain ⟨n, d⟩ := x
    obtain ⟨r, h1, h2⟩ := h.saveFile (o := o) n d
    unfold Atr.addLoop
    rw [h1]
    cases r with
    | error e => exact ⟨_, rfl, nofun⟩
    | ok c =>
      cases c with
      | true => exact absurd rfl h2
      | false => exact ih

theorem Frozen.removeLoop (h : Frozen D m) : ∀ (ns : List Bytes), ∃ r, removeLoop D o ns false m = (r, m) ∧ r ≠ .ok true := by
  intro ns
  induction ns with
  | nil => exact ⟨_, rfl, nofun⟩
  | cons n ns ih =>
    unfold Atr.removeLoop
    cases D.find m n with
    | error e => cases e <;> first | exact ih | exact ⟨_, rfl, nofun⟩
    | ok _ =>
      simp only
      split
      · exact ih
      · obtain ⟨e, he⟩ := h.delete n
        rw [he]
        exact ⟨_, rfl, nofun⟩

end

theorem write_boot (t : Char) (n d : Bytes) (m : HImg) (s : List ISeg) : Image.write t n d (.boot m s) = (.error (match buildSectors m.hdr d with
    | .error e => e
    | .ok _ => .indexError), .boot m s) := by
  unfold Image.write
  simp only
  split <;> rename_i h <;> rw [h]

theorem write_disk (t : Char) (n d : Bytes) (m : HImg) (s : List ISeg) : Image.write t n d (.disk m s) = (.error (match buildSectors m.hdr d with
    | .error e => e
    | .ok _ => .indexError), .disk m s) := by
  unfold Image.write
  simp only
  split <;> rename_i h <;> rw [h]

theorem frozen_image {L : Libs} {t : Char} {i : Image} (h : ¬ i.Writable) : Frozen (imageDriver L t) i := by
  cases i <;> first
    | exact absurd trivial h
    | refine ⟨fun n => ⟨_, rfl⟩, fun n d => ?_⟩
  all_goals first
    | exact ⟨_, rfl⟩
    | skip
  · exact ⟨_, write_boot t n d _ _⟩
  · exact ⟨_, write_disk t n d _ _⟩

/-- what a command makes of a loaded image -/
theorem run_loaded {σ : Type} {D : Driver σ} {o : Opts} {c : Cmd} {f : Bytes} {m : σ} (h : D.load f = .ok m) :
    c.run D o f = match c.exec D o m with
      | (.error e, _) => (.error e, f)
      | (.ok false, _) => (.ok (), f)
      | (.ok true, m) => (.ok (), D.bytes m) := by
  unfold Cmd.run
  rw [h]
  rfl

/-- **C80, files that stay as they are.** Unless the file is taken for an Atari DOS or a DOS 3.3 disk, or for a SpartaDOS disk by `vtoc -e`, no
command changes it, whatever its options and arguments, and whether it fails or not. -/
theorem C80_unchanged {L : Libs} {t : Char} {f : Bytes} (o : Opts) (c : Cmd) (h : ∀ i, loadImage L f = .ok i → ¬ i.Changes c) :
    (c.run (imageDriver L t) o f).2 = f := by
  cases hl : loadImage L f with
  | error e =>
    unfold Cmd.run
    rw [show (imageDriver L t).load f = .error e from hl]
  | ok i =>
    have hi := h i hl
    rw [run_loaded (show (imageDriver L t).load f = .ok i from hl)]
    have key : ∃ r m, c.exec (imageDriver L t) o i = (r, m) ∧ r ≠ .ok true := by
      have hw : ¬ i.Writable := fun hw => hi (by cases i <;> first | exact trivial | exact hw.elim)
      cases c with
      | add fs => obtain ⟨r, h1, h2⟩ := (frozen_image (L := L) (t := t) hw).addLoop (o := o) fs; exact ⟨r, i, h1, h2⟩
      | remove ns => obtain ⟨r, h1, h2⟩ := (frozen_image (L := L) (t := t) hw).removeLoop (o := o) ns; exact ⟨r, i, h1, h2⟩
      | shred =>
        unfold Cmd.exec
        simp only
        split
        · exact ⟨_, _, rfl, nofun⟩
        · cases i <;> first | exact absurd trivial hi | exact absurd rfl hi | exact ⟨_, _, rfl, nofun⟩
    obtain ⟨r, m, h1, h2⟩ := key
    rw [h1]
    cases r with
    | error e => rfl
    | ok x =>
      cases x with
      | true => exact absurd rfl h2
      | false => rfl

/-- **C80, histories.** So does no history of commands. -/
theorem C80_unchanged_history {L : Libs} {t : Char} {f : Bytes} : ∀ (cs : List (Opts × Cmd)),
    (∀ x ∈ cs, ∀ i, loadImage L f = .ok i → ¬ i.Changes x.2) → (runHistory (imageDriver L t) cs f).2 = f := by
  intro cs
  induction cs with
  | nil => intro _; rfl
  | cons x cs ih =>
    intro h
    obtain ⟨o, c⟩ := x
    have h1 := C80_unchanged (t := t) o c (h (o, c) (by simp))
    show (runHistory (imageDriver L t) cs (c.run (imageDriver L t) o f).2).2 = f
    rw [h1]
    exact ih fun x hx => h x (by simp [hx])

/-- a file that is taken for a SpartaDOS disk is changed by `vtoc -e` only, and only as described in C79 -/
theorem C80_sparta {L : Libs} {t : Char} {f : Bytes} {m : SImg} {segs} (h : loadImage L f = .ok (.sparta m segs)) (o : Opts) (c : Cmd)
    (hc : c ≠ .shred) : (c.run (imageDriver L t) o f).2 = f :=
  C80_unchanged o c fun i hi => by rw [h] at hi; cases hi; exact hc

/-! ### the results -/

/-- the error of `add` for a file that is not there yet -/
def Image.addError (d : Bytes) : Image → Err
  | .kboot .. | .sparta .. => .typeError
  | .boot m _ | .disk m _ => match buildSectors m.hdr d with
    | .error e => e
    | .ok _ => .indexError
  | _ => .attributeError

/-- **C80, adding.** Adding a file to an image that can not be written to fails, with an exception that is no message for the user
(`TypeError`, `IndexError`, `AttributeError`), unless it is a dry run. -/
theorem C80_add {L : Libs} {t : Char} {f : Bytes} {i : Image} {o : Opts} (h : loadImage L f = .ok i) (hw : ¬ i.Writable) (ho : o.dryRun = false)
    (n d : Bytes) (fs : List (Bytes × Bytes)) (hn : (imageDriver L t).find i n = .error .fileNotFound) :
    (Cmd.add ((n, d) :: fs)).run (imageDriver L t) o f = (.error (i.addError d), f) := by
  rw [run_loaded (show (imageDriver L t).load f = .ok i from h)]
  have hwr : (imageDriver L t).write n d i = (.error (i.addError d), i) := by
    cases i <;> first
      | exact absurd trivial hw
      | rfl
      | skip
    · exact write_boot t n d _ _
    · exact write_disk t n d _ _
  unfold Cmd.exec addLoop saveFile
  simp only
  rw [hn]
  unfold finishSave
  simp only
  rw [ho, if_neg (by decide), hwr]

/-- **C80, removing.** On an image with no files at all `delete` finds nothing and succeeds; if the file is found (KBoot, SpartaDOS) it raises
`TypeError`. -/
theorem C80_remove {L : Libs} {t : Char} {f : Bytes} {i : Image} {o : Opts} (h : loadImage L f = .ok i) (hw : ¬ i.Writable) (n : Bytes) :
    (Cmd.remove [n]).run (imageDriver L t) o f =
      (match (imageDriver L t).find i n with
        | .error .fileNotFound => .ok ()
        | .error e => .error e
        | .ok _ => if o.dryRun then .ok () else .error .typeError, f) := by
  rw [run_loaded (show (imageDriver L t).load f = .ok i from h)]
  unfold Cmd.exec removeLoop
  simp only
  cases hf : (imageDriver L t).find i n with
  | error e => cases e <;> rfl
  | ok _ =>
    simp only
    cases ho : o.dryRun with
    | true => rfl
    | false =>
      simp only [Bool.false_eq_true, if_false]
      cases i <;> first
        | exact absurd trivial hw
        | rfl
        | cases hf

/-- **C80, clearing.** `vtoc -e` on these images always fails, but for SpartaDOS disks (C79) -/
theorem C80_clear {L : Libs} {t : Char} {f : Bytes} {i : Image} {o : Opts} (h : loadImage L f = .ok i) (hi : ¬ i.Changes .shred) (ho : o.dryRun = false) :
    Cmd.shred.run (imageDriver L t) o f =
      (.error (match i with
        | .kboot .. | .boot .. | .disk .. => .indexError
        | _ => .attributeError), f) := by
  rw [run_loaded (show (imageDriver L t).load f = .ok i from h)]
  unfold Cmd.exec
  simp only
  rw [ho, if_neg (by decide)]
  cases i <;> first
    | exact absurd trivial hi
    | exact absurd rfl hi
    | rfl

/-! ### images that can be written to -/

theorem embedsI_atari (L : Libs) (t : Char) (s : List ISeg) : Embeds atariDriver (imageDriver L t) (fun m => .atari m s) :=
  ⟨fun _ => rfl, fun _ _ => rfl, fun _ _ => rfl, fun _ _ _ => rfl, fun _ => rfl⟩

theorem embedsI_dos33 (L : Libs) (t : Char) (s : List ISeg) : Embeds (dos33Driver t) (imageDriver L t) (fun m => .dos33 m s) :=
  ⟨fun _ => rfl, fun _ _ => rfl, fun _ _ => rfl, fun _ _ _ => rfl, fun _ => rfl⟩

/-- a command on a file, or on what the file unpacks to -/
theorem run_unpacked {σ τ : Type} {D : Driver σ} {E : Driver τ} {g : σ → τ} (h : Embeds D E g) {o : Opts} {c : Cmd} {f raw : Bytes} {m : σ}
    (h1 : D.load raw = .ok m) (h2 : E.load f = .ok (g m)) :
    (c.run E o f).1 = (c.run D o raw).1 ∧ ((c.run E o f).2 = (c.run D o raw).2 ∨ ((c.run D o raw).2 = raw ∧ (c.run E o f).2 = f)) := by
  rw [run_loaded h1, run_loaded h2, exec_embeds h]
  cases c.exec D o m with
  | mk r m' =>
    cases r with
    | error e => exact ⟨rfl, Or.inr ⟨rfl, rfl⟩⟩
    | ok x =>
      cases x with
      | true => exact ⟨rfl, Or.inl (h.bytes m')⟩
      | false => exact ⟨rfl, Or.inr ⟨rfl, rfl⟩⟩

/-- **C80, Atari DOS.** On a file that is taken for an Atari DOS disk, or unpacks to one, a command gives the result it gives on the unpacked disk.  If
it changes that disk the file is replaced by the changed disk, which is not packed again; otherwise the file stays as it is (or, if it is saved
without a change, is replaced by the unpacked disk). -/
theorem C80_atari {L : Libs} {t : Char} {f : Bytes} {m : AImg} {segs} (h : loadImage L f = .ok (.atari m segs)) (o : Opts) (c : Cmd) :
    AImg.open m.bytes = .ok m ∧ (c.run (imageDriver L t) o f).1 = (c.run atariDriver o m.bytes).1 ∧
    ((c.run (imageDriver L t) o f).2 = (c.run atariDriver o m.bytes).2 ∨
      ((c.run atariDriver o m.bytes).2 = m.bytes ∧ (c.run (imageDriver L t) o f).2 = f)) := by
  obtain ⟨x, -, h1, -⟩ := C80_opened h
  have h2 := h1
  rw [← (open_first h1).2.1] at h2
  exact ⟨h2, run_unpacked (embedsI_atari L t segs) h2 h⟩

/-- **C80, DOS 3.3.** The same for DOS 3.3 disks. -/
theorem C80_dos33 {L : Libs} {t : Char} {f : Bytes} {m : DImg} {segs} (h : loadImage L f = .ok (.dos33 m segs)) (o : Opts) (c : Cmd) :
    DImg.open m.bytes = .ok m ∧ (c.run (imageDriver L t) o f).1 = (c.run (dos33Driver t) o m.bytes).1 ∧
    ((c.run (imageDriver L t) o f).2 = (c.run (dos33Driver t) o m.bytes).2 ∨
      ((c.run (dos33Driver t) o m.bytes).2 = m.bytes ∧ (c.run (imageDriver L t) o f).2 = f)) := by
  obtain ⟨x, -, h1, -⟩ := C80_opened h
  have h2 := h1
  rw [← (open33_ok h1).2.1] at h2
  exact ⟨h2, run_unpacked (embedsI_dos33 L t segs) h2 h⟩

/-- where C69 and C74 say what happens, the same happens here -/
theorem run_image_disk {L : Libs} {t : Char} {f : Bytes} {x : AImg ⊕ DImg} (h : loadDisk L f = .ok x) (o : Opts) (c : Cmd) :
    c.run (imageDriver L t) o f = c.run (diskDriver L t) o f := by
  rw [run_loaded (show (diskDriver L t).load f = .ok x from h)]
  unfold loadDisk at h
  split at h
  case h_1 m s k hd =>
    cases h
    have hl : (imageDriver L t).load f = .ok (.atari m s) := by
      show loadImage L f = _
      unfold loadImage
      rw [hd]
    rw [run_loaded hl, exec_embeds (embedsI_atari L t s), exec_embeds (embeds_atari L t)]
    rcases c.exec atariDriver o m with ⟨_ | (_ | _), m'⟩ <;> rfl
  case h_2 m s k hd =>
    cases h
    have hl : (imageDriver L t).load f = .ok (.dos33 m s) := by
      show loadImage L f = _
      unfold loadImage
      rw [hd]
    rw [run_loaded hl, exec_embeds (embedsI_dos33 L t s), exec_embeds (embeds_dos33 L t)]
    rcases c.exec (dos33Driver t) o m with ⟨_ | (_ | _), m'⟩ <;> rfl
  all_goals cases h

/-- **C80, histories on Atari DOS disks.** C69 for the command line on all kinds of files. -/
theorem C80_history {L : Libs} {t : Char} {h : AHeader} (hmax : h.maxSectors < 1280) : ∀ (cs : List (Opts × Cmd)) (b : Bytes) (M : FMap),
    Holds h b M → AtariFile L h b → HistoryLegal M cs (runHistory (imageDriver L t) cs b).1 →
    runHistory (imageDriver L t) cs b = runHistory atariDriver cs b ∧
    Holds h (runHistory (imageDriver L t) cs b).2 (specHistory M cs (runHistory (imageDriver L t) cs b).1) ∧
    AtariFile L h (runHistory (imageDriver L t) cs b).2 := by
  have key : ∀ (cs : List (Opts × Cmd)) (b : Bytes) (M : FMap), Holds h b M → AtariFile L h b →
      HistoryLegal M cs (runHistory (imageDriver L t) cs b).1 → runHistory (imageDriver L t) cs b = runHistory (diskDriver L t) cs b := by
    intro cs
    induction cs with
    | nil => intro b M _ _ _; rfl
    | cons x cs ih =>
      intro b M hh ha hl
      obtain ⟨o, c⟩ := x
      obtain ⟨l1, l2⟩ := hl
      obtain ⟨m, ds, h1, h2, h3, h4, h5⟩ := id hh
      have hd : loadDisk L b = .ok (.inl m) := by
        obtain ⟨fs, hseg, _⟩ := segments_mounted h2
        subst h3
        subst h4
        obtain ⟨k, _, hd⟩ := C68_atari (plainDisk_mounted h2 (ha.plain _ rfl rfl) ha.usual) ha.notKboot ha.notSparta h2.1 hseg
        unfold loadDisk
        rw [hd]
      have hrun := run_image_disk (t := t) hd o c
      obtain ⟨-, i2, i3⟩ := C69_history (L := L) (t := t) hmax [(o, c)] b M hh ha ⟨l1, trivial⟩
      have i2' : Holds h (c.run (diskDriver L t) o b).2 (c.specR o M (c.run (diskDriver L t) o b).1) := i2
      have i3' : AtariFile L h (c.run (diskDriver L t) o b).2 := i3
      rw [← hrun] at i2' i3'
      have := ih _ _ i2' i3' l2
      show ((c.run (imageDriver L t) o b).1 :: _, _) = ((c.run (diskDriver L t) o b).1 :: _, _)
      rw [this, hrun]
  intro cs b M hh ha hl
  have e := key cs b M hh ha hl
  rw [e] at hl ⊢
  exact C69_history hmax cs b M hh ha hl

/-- the command line on any file, a file type for each command -/
def withImages (L : Libs) (cs : List (Char × Opts × Cmd)) : List (Driver Image × Opts × Cmd) := cs.map fun x => (imageDriver L x.1, x.2)

/-- **C80, histories on DOS 3.3 disks (partial).** C74 for the command line on all kinds of files. -/
theorem C80_history33_partial {L : Libs} {cat : List Nat} (cs : List (Char × Opts × Cmd)) (b : Bytes) (M : FMap)
    (hh : Holds33 cat b M) (ha : Dos33File L b) (ht : ∀ x ∈ cs, x.1 ≠ 'T') (hz : ∀ f ∈ seenFiles (withImages L cs) b, L.zip f = .ok none)
    (hl : HistoryLegalG Fits33 (7 * (cat.length - 1)) M (cs.map (·.2)) (runHistoryD (withImages L cs) b).1) :
    runHistoryD (withImages L cs) b = runHistory33 cs b ∧
    Holds33 cat (runHistoryD (withImages L cs) b).2 (specHistory M (cs.map (·.2)) (runHistoryD (withImages L cs) b).1) ∧
    Dos33File L (runHistoryD (withImages L cs) b).2 := by
  have key : ∀ (cs : List (Char × Opts × Cmd)) (b : Bytes) (M : FMap), Holds33 cat b M → Dos33File L b → (∀ x ∈ cs, x.1 ≠ 'T') →
      (∀ f ∈ seenFiles (withImages L cs) b, L.zip f = .ok none) →
      HistoryLegalG Fits33 (7 * (cat.length - 1)) M (cs.map (·.2)) (runHistoryD (withImages L cs) b).1 →
      runHistoryD (withImages L cs) b = runHistoryD (withLibs L cs) b ∧ seenFiles (withImages L cs) b = seenFiles (withLibs L cs) b := by
    intro cs
    induction cs with
    | nil => intro b M _ _ _ _ _; exact ⟨rfl, rfl⟩
    | cons x cs ih =>
      intro b M hh ha ht hz hl
      obtain ⟨t, o, c⟩ := x
      obtain ⟨l1, l2⟩ := hl
      obtain ⟨m, ds, h1, h2, h3, h4⟩ := id hh
      have hd : loadDisk L b = .ok (.inr m) := by
        subst h3
        obtain ⟨segs, k, hs, hd⟩ := C74_detected_partial h2 ha (hz _ (List.mem_cons_self ..))
        unfold loadDisk
        rw [hd]
      have hrun := run_image_disk (t := t) hd o c
      have hz1 : ∀ f ∈ seenFiles (withLibs L [(t, o, c)]) b, L.zip f = .ok none := by
        intro f hf
        have hf : f ∈ [b, (c.run (diskDriver L t) o b).2] := hf
        rw [← hrun] at hf
        apply hz
        show f ∈ b :: seenFiles (withImages L cs) (c.run (imageDriver L t) o b).2
        simp only [List.mem_cons, List.not_mem_nil, or_false] at hf
        rcases hf with rfl | rfl
        · exact List.mem_cons_self ..
        · refine List.mem_cons_of_mem _ ?_
          cases hc : withImages L cs with
          | nil => simp [seenFiles]
          | cons y ys => obtain ⟨D, o', c'⟩ := y; simp [seenFiles]
      have l1' : HistoryLegalG Fits33 (7 * (cat.length - 1)) M [(o, c)] (runHistoryD (withLibs L [(t, o, c)]) b).1 := ⟨l1, trivial⟩
      obtain ⟨-, i2, i3⟩ := C74_history_partial [(t, o, c)] b M hh ha (fun x hx => ht x (by simp at hx; subst hx; simp)) hz1 l1'
      have i2' : Holds33 cat (c.run (diskDriver L t) o b).2 (c.specR o M (c.run (diskDriver L t) o b).1) := i2
      have i3' : Dos33File L (c.run (diskDriver L t) o b).2 := i3
      rw [← hrun] at i2' i3'
      obtain ⟨e1, e2⟩ := ih _ _ i2' i3' (fun x hx => ht x (List.mem_cons_of_mem _ hx)) (fun f hf => hz f (List.mem_cons_of_mem _ hf)) l2
      constructor
      · show ((c.run (imageDriver L t) o b).1 :: (runHistoryD (withImages L cs) (c.run (imageDriver L t) o b).2).1,
          (runHistoryD (withImages L cs) (c.run (imageDriver L t) o b).2).2) = ((c.run (diskDriver L t) o b).1 :: _, _)
        rw [e1, hrun]
        rfl
      · show b :: seenFiles (withImages L cs) (c.run (imageDriver L t) o b).2 = b :: _
        rw [e2, hrun]
        rfl
  obtain ⟨e1, e2⟩ := key cs b M hh ha ht hz hl
  rw [e1] at hl ⊢
  rw [e2] at hz
  exact C74_history_partial cs b M hh ha ht hz hl

/-- **C80, compressed files.** `vtoc -e` on a file that unpacks to a consistent Atari DOS volume replaces it by the disk image itself, as long as the unpacked
image and no longer compressed. -/
theorem C80_packed {L : Libs} {t : Char} {f : Bytes} {m : AImg} {ds segs} (h : loadImage L f = .ok (.atari m segs)) (hm : Mounted m ds)
    (hmax : m.hdr.maxSectors < 1280) (o : Opts) (ho : o.dryRun = false) :
    ∃ b', Cmd.shred.run (imageDriver L t) o f = (.ok (), b') ∧ b'.length = m.bytes.length ∧ ∃ m', AImg.open b' = .ok m' ∧ m'.listing = m.listing := by
  obtain ⟨m', h1, h2, h3, -, -, h4, -⟩ := C09_shred 0 hm hmax
  refine ⟨m'.bytes, ?_, h3, m', h2, h4⟩
  rw [run_loaded (show (imageDriver L t).load f = .ok (.atari m segs) from h), exec_embeds (embedsI_atari L t segs)]
  unfold Cmd.exec
  simp only
  rw [ho, if_neg (by decide), show atariDriver.shred m = (.ok (), m') from h1]
  rfl

/-! ### examples -/

/-- a program for Atari computers that is given as an image -/
def sampleXexFile : Bytes := [0xff, 0xff, 0, 6, 1, 6, 1, 2]

theorem load_sampleXex : ∃ l, loadImage magicLibs sampleXexFile = .ok (.xex l) := by
  have : (match loadImage magicLibs sampleXexFile with
    | .ok (.xex _) => true
    | _ => false) = true := by decide +kernel
  split at this
  · rename_i l h; exact ⟨l, h⟩
  · cases this

/-- it is not changed by seven commands -/
example : (runHistory (imageDriver magicLibs 'B') sampleHistory sampleXexFile).2 = sampleXexFile :=
  C80_unchanged_history _ fun x _ i hi => by
    obtain ⟨l, hl⟩ := load_sampleXex
    rw [hl] at hi
    cases hi
    exact id

/-- nor by adding a file with a file name that can not be found: there is no method to look for it -/
example (n d : Bytes) : (Cmd.add [(n, d)]).run (imageDriver magicLibs 'B') {} sampleXexFile = (.error .attributeError, sampleXexFile) := by
  obtain ⟨l, hl⟩ := load_sampleXex
  rw [run_loaded (show (imageDriver magicLibs 'B').load sampleXexFile = .ok (.xex l) from hl)]
  rfl

theorem load_detect {L : Libs} {f : Bytes} {i : Image} {t : Mime} (h : detect L f = .ok (i, t)) : loadImage L f = .ok i := by
  unfold loadImage
  rw [h]

/-- four bytes are taken for a ROM: adding a file to it fails, deleting one finds nothing -/
example (n d : Bytes) : (Cmd.add [(n, d)]).run (imageDriver magicLibs 'B') {} [1, 2, 3, 4] = (.error .attributeError, [1, 2, 3, 4]) ∧
    (Cmd.remove [n]).run (imageDriver magicLibs 'B') {} [1, 2, 3, 4] = (.ok (), [1, 2, 3, 4]) := by
  obtain ⟨t, ht⟩ := detect_small.2.1
  exact ⟨C80_add (load_detect ht) id rfl n d [] rfl, C80_remove (load_detect ht) id n⟩

/-- libraries for which the file `[1]` unpacks to the blank disk of the package -/
def packedLibs : Libs := { magicLibs with dec := { magicLibs.dec with gzip := fun b => if b = [1] then .ok sdDisk else magicLibs.dec.gzip b } }

theorem load_packed : ∃ segs, loadImage packedLibs [1] = .ok (.atari (mountRec sdH sdDisk []) segs) := by
  obtain ⟨h1, h2, h3⟩ := sdDisk_not rfl rfl
  obtain ⟨t, segs, _, h⟩ := C68_mounted mounted_sd h3 (Or.inl rfl) h1 h2
  have h : detect magicLibs sdDisk = .ok (.atari (mountRec sdH sdDisk []) segs, t) := h
  rw [detect_plain h3] at h
  refine ⟨segs, load_detect (t := t) ?_⟩
  rw [← h]
  rfl

/-- `vtoc -e` on this file of one byte leaves a file of 92176 bytes -/
example : ((Cmd.shred.run (imageDriver packedLibs 'B') {} [1]).2).length = 92176 := by
  obtain ⟨segs, h⟩ := load_packed
  obtain ⟨b', h1, h2, -⟩ := C80_packed (t := 'B') h mounted_sd (by decide) {} rfl
  rw [h1]
  exact h2.trans sdDisk_size

end Atr
