import Verif.Props.DetectAtari
import Verif.Props.Dos33Cli
import Verif.Props.Cli
/-!
# C69: command-line histories, including the choice of the format

C05 and C14 take the image file as an Atari DOS or a DOS 3.3 image.  Here every command starts from the file and finds out by
itself what it is.
-/
namespace Atr

/-- `(r, s)` with the state under `f` -/
def mapState {σ τ α : Type} (f : σ → τ) (x : Except Err α × σ) : Except Err α × τ := (x.1, f x.2)

/-- `find_diskimage`, `__init__.py:85-98`.  Only Atari DOS and DOS 3.3 images can be written to; the result of a command on any
other kind of image is left out (some error is put in its place). -/
def loadDisk (L : Libs) (b : Bytes) : Except Err (AImg ⊕ DImg) :=
  match detect L b with
  | .ok (.atari m _, _) => .ok (.inl m)
  | .ok (.dos33 m _, _) => .ok (.inr m)
  | .ok _ => .error .unsupportedDiskImage
  | .error (.py e) => .error e
  | .error (.ext _) => .error .ioError

/-- the command line with `find_diskimage`; `t` is the argument of `--filetype` -/
def diskDriver (L : Libs) (t : Char) : Driver (AImg ⊕ DImg) where
  load := loadDisk L
  bytes := fun
    | .inl m => m.bytes
    | .inr m => m.bytes
  find := fun m name => match m with
    | .inl m => atariDriver.find m name
    | .inr m => (dos33Driver t).find m name
  delete := fun name m => match m with
    | .inl m => mapState .inl (atariDriver.delete name m)
    | .inr m => mapState .inr ((dos33Driver t).delete name m)
  write := fun name data m => match m with
    | .inl m => mapState .inl (atariDriver.write name data m)
    | .inr m => mapState .inr ((dos33Driver t).write name data m)
  shred := fun m => match m with
    | .inl m => mapState .inl (atariDriver.shred m)
    | .inr m => mapState .inr ((dos33Driver t).shred m)

/-- the operations of `E` on `f m` are those of `D` on `m` -/
structure Embeds {σ τ : Type} (D : Driver σ) (E : Driver τ) (f : σ → τ) : Prop where
  bytes : ∀ m, E.bytes (f m) = D.bytes m
  find : ∀ m n, E.find (f m) n = D.find m n
  delete : ∀ m n, E.delete n (f m) = mapState f (D.delete n m)
  write : ∀ m n d, E.write n d (f m) = mapState f (D.write n d m)
  shred : ∀ m, E.shred (f m) = mapState f (D.shred m)

theorem embeds_atari (L : Libs) (t : Char) : Embeds atariDriver (diskDriver L t) .inl :=
  ⟨fun _ => rfl, fun _ _ => rfl, fun _ _ => rfl, fun _ _ _ => rfl, fun _ => rfl⟩
theorem embeds_dos33 (L : Libs) (t : Char) : Embeds (dos33Driver t) (diskDriver L t) .inr :=
  ⟨fun _ => rfl, fun _ _ => rfl, fun _ _ => rfl, fun _ _ _ => rfl, fun _ => rfl⟩

section
variable {σ τ : Type} {D : Driver σ} {E : Driver τ} {f : σ → τ} (h : Embeds D E f) (o : Opts)
include h

theorem finishSave_embeds (n d : Bytes) (m : σ) : finishSave E o n d (f m) = mapState f (finishSave D o n d m) := by
  unfold finishSave
  split
  · rfl
  · rw [h.write]
    cases D.write n d m with
    | mk r m' => cases r <;> rfl

theorem saveFile_embeds (n d : Bytes) (m : σ) : saveFile E o n d (f m) = mapState f (saveFile D o n d m) := by
  unfold saveFile
  rw [h.find, h.delete]
  cases D.find m n with
  | error e => cases e <;> first | exact finishSave_embeds h o n d m | rfl
  | ok _ =>
    simp only
    split
    · cases D.delete n m with
      | mk r m' =>
        cases r with
        | error e => cases e <;> first | exact finishSave_embeds h o n d m' | rfl
        | ok _ => exact finishSave_embeds h o n d m'
    · rfl

theorem addLoop_embeds : ∀ (fs : List (Bytes × Bytes)) (c : Bool) (m : σ), addLoop E o fs c (f m) = mapState f (addLoop D o fs c m) := by
  intro fs
  induction fs with
  | nil => intro c m; rfl
  | cons x fs ih =>
    intro c m
    obtain ⟨n, d⟩ := x
    unfold addLoop
    rw [saveFile_embeds h]
    cases saveFile D o n d m with
    | mk r m' =>
      cases r with
      | error e => rfl
      | ok c => exact ih c m'

theorem removeLoop_embeds : ∀ (ns : List Bytes) (c : Bool) (m : σ), removeLoop E o ns c (f m) = mapState f (removeLoop D o ns c m) := by
  intro ns
  induction ns with
  | nil => intro c m; rfl
  | cons n ns ih =>
    intro c m
    unfold removeLoop
    rw [h.find, h.delete]
    cases D.find m n with
    | error e => cases e <;> first | exact ih c m | rfl
    | ok _ =>
      simp only
      split
      · exact ih c m
      · cases D.delete n m with
        | mk r m' =>
          cases r with
          | error e => rfl
          | ok _ => exact ih true m'

theorem exec_embeds (c : Cmd) (m : σ) : c.exec E o (f m) = mapState f (c.exec D o m) := by
  cases c with
  | add fs => exact addLoop_embeds h o fs false m
  | remove ns => exact removeLoop_embeds h o ns false m
  | shred =>
    unfold Cmd.exec
    simp only
    split
    · rfl
    · rw [h.shred]
      cases D.shred m with
      | mk r m' => cases r <;> rfl

/-- a command does the same under both drivers if they load the same image -/
theorem run_embeds (c : Cmd) {b : Bytes} {m : σ} (h1 : D.load b = .ok m) (h2 : E.load b = .ok (f m)) : c.run E o b = c.run D o b := by
  unfold Cmd.run
  rw [h1, h2]
  simp only
  rw [exec_embeds h]
  cases c.exec D o m with
  | mk r m' =>
    cases r with
    | error e => rfl
    | ok x =>
      cases x with
      | true => exact congrArg _ (h.bytes m')
      | false => rfl

end

/-- **C69, one command.** On a file that is taken for an Atari DOS disk, a command does what C05 and the other theorems about
`atariDriver` say. -/
theorem C69_command {L : Libs} {t : Char} {h : AHeader} {b : Bytes} (d : PlainDisk L h b) (hk : ¬ KbootLike h b) (hs : ¬ SpartaLike h b)
    {m : AImg} {segs} (hm : AImg.open b = .ok m) (hseg : m.segments = .ok segs) (o : Opts) (c : Cmd) :
    c.run (diskDriver L t) o b = c.run atariDriver o b := by
  obtain ⟨k, _, hd⟩ := C68_atari d hk hs hm hseg
  refine run_embeds (embeds_atari L t) o c hm ?_
  show loadDisk L b = _
  unfold loadDisk
  rw [hd]

/-! ### Atari DOS -/

/-- as `Rep`, and the image still has its length and boot sectors -/
def RepBoot (h : AHeader) (n : Nat) (front : Bytes) (m : AImg) (M : FMap) : Prop :=
  Rep h m M ∧ m.bytes.length = n ∧ m.bytes.take (bootEnd h) = front

theorem RepBoot.step {h n front m M M'} {m' : AImg} {op : Op} {r} (q : RepBoot h n front m M) (hr : op.run m = (r, m')) (q' : Rep h m' M') :
    RepBoot h n front m' M' := by
  obtain ⟨⟨ds, h1, h2, _⟩, h4, h5⟩ := q
  have k := op_keeps (bootSafe_mounted h1) hr
  refine ⟨q', k.len.trans h4, ?_⟩
  rw [← h5, ← h2]
  exact k.front

theorem simAtari {h : AHeader} (hmax : h.maxSectors < 1280) (n : Nat) (front : Bytes) :
    Sim atariDriver (RepBoot h n front) (fun n d => Canon83 n ∧ d ≠ []) 64 where
  load := fun ⟨⟨_, hm, _⟩, _⟩ => hm.1
  find_mem := fun r hn => r.1.find_mem hn
  find_not := fun r hn => r.1.find_not hn
  delete := by
    intro m M n r hn
    obtain ⟨m', k1, k2⟩ := r.1.delete hn
    exact ⟨m', k1, r.step (op := .delete n) k1 k2⟩
  write := by
    intro m M n d r hn hp hs
    rcases r.1.write hn hp.1 hp.2 hs with ⟨m', k1, k2, _⟩ | ⟨k1, _⟩
    · exact Or.inl ⟨m', k1, r.step (op := .write n d) k1 k2⟩
    · exact Or.inr ⟨m, k1⟩
  shred := by
    intro m M r
    obtain ⟨m', k1, k2⟩ := r.1.shred 0 hmax
    exact ⟨m', k1, r.step (op := .shred 0) k1 k2⟩

theorem legalG {o : Opts} {c : Cmd} {M : FMap} (h : c.Legal o M) : c.LegalG (fun n d => Canon83 n ∧ d ≠ []) 64 o M := by
  cases c with
  | add fs =>
    have key : ∀ (fs : List (Bytes × Bytes)) (M : FMap), AddLegal o.force M fs → AddLegalG (fun n d => Canon83 n ∧ d ≠ []) 64 o.force M fs := by
      intro fs
      induction fs with
      | nil => intro _ _; trivial
      | cons x fs ih => intro M ⟨h1, h2, h3, h4⟩; exact ⟨⟨h1, h2⟩, h3, ih _ h4⟩
    exact key fs M h
  | remove ns => trivial
  | shred => trivial

theorem getD_of_take {b b' : Bytes} {k i : Nat} (h : b'.take k = b.take k) (hi : i < k) : b'.getD i 0 = b.getD i 0 := by
  have key : ∀ x : Bytes, x.getD i 0 = (x.take k).getD i 0 := by
    intro x
    rw [List.getD_eq_getElem?_getD, List.getD_eq_getElem?_getD, List.getElem?_take_of_lt hi]
  rw [key b', key b, h]

/-- what the detection looks at is in the boot sectors -/
theorem boot_same {h : AHeader} {b b' : Bytes} (hs : 128 ≤ h.sectorSize) (hl : b'.length = b.length)
    (hf : b'.take (bootEnd h) = b.take (bootEnd h)) : (KbootLike h b' ↔ KbootLike h b) ∧ (SpartaLike h b' ↔ SpartaLike h b) := by
  have hb := bootEnd_big hs
  have e : ∀ i, i < 384 → bootByte h b' i = bootByte h b i := fun i hi => by
    unfold bootByte
    rw [getD_of_take hf (by omega)]
  unfold KbootLike SpartaLike kbootLength bootWord
  rw [hl]
  simp only [e 9 (by omega), e (9 + 1) (by omega), e 11 (by omega), e (11 + 1) (by omega), e 16 (by omega), e (16 + 1) (by omega),
    e 18 (by omega), e (18 + 1) (by omega), e 31 (by omega), e 32 (by omega)]
  exact ⟨trivial, trivial⟩

/-- the file is taken for an Atari DOS disk, and so is every file of the same length with the same boot sectors that holds an
Atari DOS volume -/
structure AtariFile (L : Libs) (h : AHeader) (b : Bytes) : Prop where
  /-- no decompressor, no entry of the database takes a file of this length with these boot sectors -/
  plain : ∀ b' : Bytes, b'.length = b.length → b'.take (bootEnd h) = b.take (bootEnd h) → L.Plain b'
  usual : UsualDisk h b
  notKboot : ¬ KbootLike h b
  notSparta : ¬ SpartaLike h b

/-- **C69, Atari DOS.** A history of commands on a consistent Atari DOS volume that is not taken for a KBoot or SpartaDOS disk:
every command, finding out the format by itself, does what it does in C05; afterwards the files are those of the map, and the
file is still taken for an Atari DOS disk. -/
theorem C69_history {L : Libs} {t : Char} {h : AHeader} (hmax : h.maxSectors < 1280) : ∀ (cs : List (Opts × Cmd)) (b : Bytes) (M : FMap),
    Holds h b M → AtariFile L h b → HistoryLegal M cs (runHistory (diskDriver L t) cs b).1 →
    runHistory (diskDriver L t) cs b = runHistory atariDriver cs b ∧
    Holds h (runHistory (diskDriver L t) cs b).2 (specHistory M cs (runHistory (diskDriver L t) cs b).1) ∧
    AtariFile L h (runHistory (diskDriver L t) cs b).2 := by
  intro cs
  induction cs with
  | nil => intro b M hh ha _; exact ⟨rfl, hh, ha⟩
  | cons x cs ih =>
    intro b M hh ha hl
    obtain ⟨o, c⟩ := x
    obtain ⟨l1, l2⟩ := hl
    obtain ⟨m, ds, h1, h2, h3, h4, h5⟩ := id hh
    have hrun : c.run (diskDriver L t) o b = c.run atariDriver o b := by
      obtain ⟨fs, hseg, _⟩ := segments_mounted h2
      subst h3
      subst h4
      exact C69_command (plainDisk_mounted h2 (ha.plain _ rfl rfl) ha.usual) ha.notKboot ha.notSparta h2.1 hseg o c
    obtain ⟨m', g1, g2, g3⟩ := (run_sim (simAtari hmax b.length (b.take (bootEnd h))) (c := c) (o := o)
      ⟨m, h1, ⟨⟨ds, h2, h4, h5⟩, by rw [h3], by rw [h3]⟩, h3⟩ (legalG l1)).1
    rw [← hrun] at g1 g3
    have hb' : m'.bytes = (c.run (diskDriver L t) o b).2 := g3
    obtain ⟨g4, g5, g6⟩ := g2
    rw [hb'] at g5 g6
    have hss : 128 ≤ h.sectorSize := by
      obtain ⟨ds', q1, q2, _⟩ := g4
      have := q1.2.sectorSize
      rw [q2] at this
      omega
    have ha' : AtariFile L h (c.run (diskDriver L t) o b).2 := by
      have hbs := boot_same hss g5 g6
      exact ⟨fun b' q1 q2 => ha.plain b' (q1.trans g5) (q2.trans g6), by unfold UsualDisk; rw [g5]; exact ha.usual,
        fun hc => ha.notKboot (hbs.1.mp hc), fun hc => ha.notSparta (hbs.2.mp hc)⟩
    have hh' : Holds h (c.run (diskDriver L t) o b).2 (c.specR o M (c.run (diskDriver L t) o b).1) := by
      rw [hrun]
      exact (run_rep hh hmax l1).1
    obtain ⟨i1, i2, i3⟩ := ih _ _ hh' ha' l2
    refine ⟨?_, i2, i3⟩
    show ((c.run (diskDriver L t) o b).1 :: _, _) = ((c.run atariDriver o b).1 :: _, _)
    rw [i1, hrun]

theorem atariFile_sd : AtariFile magicLibs sdH sdDisk :=
  ⟨fun _ h1 h2 => (sdDisk_not h1 h2).2.2, Or.inl rfl, (sdDisk_not rfl rfl).1, (sdDisk_not rfl rfl).2.1⟩

/-- seven commands on the blank disk of the package, each finding out the format by itself -/
example : Holds sdH (runHistory (diskDriver magicLibs 'B') sampleHistory sdDisk).2
    (plainHistory [] sampleHistory (runHistory (diskDriver magicLibs 'B') sampleHistory sdDisk).1) := by
  have hw : ∀ x ∈ sampleHistory, x.2.Within [nameA, nameB] ∧ x.2.Single x.1 := by
    intro x hx
    simp only [sampleHistory, List.mem_cons, List.not_mem_nil, or_false] at hx
    rcases hx with rfl | rfl | rfl | rfl | rfl | rfl | rfl <;>
      simp [Cmd.Within, Cmd.Single, canonA, canonB, dataA_ne, dataB_ne]
  rw [← specHistory_plain _ _ _ (fun x hx => (hw x hx).2)]
  exact (C69_history (by decide) _ _ _ holds_sd atariFile_sd
    (historyLegal_within (N := [nameA, nameB]) (by decide) _ _ _ ⟨List.Pairwise.nil, fun k hk => by cases hk⟩ (fun x hx => (hw x hx).1))).2.1

end Atr
