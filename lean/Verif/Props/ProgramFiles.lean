import Verif.Props.Create
import Verif.Props.DetectCli
import Verif.Props.DetectDos33
/-! # C84: the program as a whole keeps the files of a disk -/
namespace Atr

/-- the file `name` of the machine is an image for which `I` holds -/
def StoresAs (I : FMap → Bytes → Prop) (name : Bytes) (M : FMap) (h : Host) : Prop := ∃ b, h.files.get name = some b ∧ I M b

/-- `I` is kept by the commands within the limits `P`, as long as the files satisfy `Q` -/
structure Keeper (W : World) (k : ExeKind) (P : Char → Opts → Cmd → FMap → Prop) (Q : Bytes → Prop) (I : FMap → Bytes → Prop) : Prop where
  detects : ∀ {M b}, I M b → Q b → ∃ i t, detect W.libs b = .ok (i, t) ∧ i.isDisk = true ∧ i.exeDefault = .ok (some k)
  step : ∀ {M b t o c}, I M b → Q b → P t o c M → Q (Cmd.run (imageDriver W.libs t) o c b).2 →
    I (c.specR o M (Cmd.run (imageDriver W.libs t) o c b).1) (Cmd.run (imageDriver W.libs t) o c b).2

variable {W : World} {k : ExeKind} {P : Char → Opts → Cmd → FMap → Prop} {Q : Bytes → Prop} {I : FMap → Bytes → Prop}

theorem keeps_cmd (K : Keeper W k P Q I) {name b : Bytes} {M : FMap} {h : Host} (hh : I M b) (hq : Q b)
    {t : Char} {o : Opts} {c : Cmd} (hl : P t o c M) {y : Except CErr Unit × Host}
    (hy : ActsAs h name (c.run (imageDriver W.libs t) o b) y) (hq' : ∀ b, y.2.files.get name = some b → Q b) :
    StoresAs I name (match y.1 with | .ok _ => c.spec o M | .error _ => M) y.2 := by
  obtain ⟨y1, y2, y3⟩ := hy
  have hg : y.2.files.get name = some (c.run (imageDriver W.libs t) o b).2 := by rw [y3, if_pos rfl]
  refine ⟨_, hg, ?_⟩
  have e : (match y.1 with | .ok _ => c.spec o M | .error _ => M) = c.specR o M (c.run (imageDriver W.libs t) o b).1 := by
    rw [y1]
    cases (c.run (imageDriver W.libs t) o b).1 <;> rfl
  rw [e]
  exact K.step hh hq hl (hq' _ hg)

theorem keeps_same {name : Bytes} {M : FMap} {h h' : Host} (hs : StoresAs I name M h) (he : h'.files.get name = h.files.get name) : StoresAs I name M h' := by
  obtain ⟨b, h1, h2⟩ := hs
  exact ⟨b, he.trans h1, h2⟩

theorem effect_asked {h : Host} {name : Bytes} {M : FMap} {r : Run} {t o c} (ha : r.asked k W h name = some (t, o, c))
    (hk : StoresAs I name (match (r.cmd.main W r.dry r.name h).1 with | .ok _ => c.spec o M | .error _ => M) (r.cmd.main W r.dry r.name h).2) :
    StoresAs I name (r.effect k W h name M) (r.cmd.main W r.dry r.name h).2 := by
  unfold Run.effect
  rw [ha]
  revert hk
  generalize r.cmd.main W r.dry r.name h = y
  intro hk
  obtain ⟨res, s⟩ := y
  cases res <;> exact hk

theorem keeps_run (K : Keeper W k P Q I) {name : Bytes} (hn : name ≠ [0x2e]) {M : FMap} {h : Host}
    (hs : StoresAs I name M h) {r : Run} (hq : ∀ b, h.files.get name = some b → Q b)
    (hq' : ∀ b, (r.cmd.main W r.dry r.name h).2.files.get name = some b → Q b) (hl : r.Legal P k W h name M) :
    StoresAs I name (r.effect k W h name M) (r.cmd.main W r.dry r.name h).2 := by
  by_cases ht : r.cmd.Targets W h r.name name
  · obtain ⟨hname, hkind⟩ := hl.1 ht
    obtain ⟨dry, rn, cmd⟩ := r
    simp only at hname hkind ht
    subst hname
    obtain ⟨b, hb, hh⟩ := id hs
    have hqb := hq b hb
    obtain ⟨i, t, hi, hdisk, hexe⟩ := K.detects hh hqb
    have hl2 := hl.2
    have fails : ∀ e, cmd.main W dry rn h = (.error e, h) →
        StoresAs I rn (Run.effect k W h rn M ⟨dry, rn, cmd⟩) (cmd.main W dry rn h).2 := by
      intro e he
      unfold Run.effect
      simp only
      rw [he]
      exact hs
    cases cmd with
    | list | crc | segments => exact ht.elim
    | create | boot | extract => exact hkind.elim
    | vtoc clear =>
      obtain ⟨-, rfl, -⟩ := ht
      have hask : Run.asked k W h rn ⟨dry, rn, .vtoc true⟩ = some ('B', { dryRun := dry }, .shred) := by unfold Run.asked; rw [if_pos rfl]
      have hc := C82_clear (dry := dry) hn hb hi
      split at hc
      · exact effect_asked hask (keeps_cmd K hh hqb (hl2 _ _ _ hask) hc hq')
      · exact fails _ hc
    | delete force names =>
      have hask : Run.asked k W h rn ⟨dry, rn, .delete force names⟩ = some ('B', { dryRun := dry }, .remove names) := by unfold Run.asked; rw [if_pos rfl]
      exact effect_asked hask (keeps_cmd K hh hqb (hl2 _ _ _ hask) (C82_delete hn hb hi) hq')
    | add force ft paths =>
      by_cases hp : ∀ p ∈ paths, h.files.get p ≠ none
      · have hask : Run.asked k W h rn ⟨dry, rn, .add force ft paths⟩ = some (filetypeChar ft, { force := force, dryRun := dry },
            .add (paths.map fun p => (baseName p, (h.files.get p).getD []))) := by
          unfold Run.asked filetypeChar; rw [if_pos rfl]; simp only; rw [if_pos hp]
          rfl
        have hc := C82_add (dry := dry) (force := force) (ft := ft) (paths := paths) (content := fun p => (h.files.get p).getD []) hn hb hi hdisk
          (fun p hp' => by
            cases hg : h.files.get p with
            | none => exact absurd hg (hp p hp')
            | some d => rfl)
        exact effect_asked hask (keeps_cmd K hh hqb (hl2 _ _ _ hask) hc hq')
      · obtain ⟨q, hq⟩ := Classical.not_forall.mp hp
        obtain ⟨hq1, hq2⟩ := Classical.not_imp.mp hq
        obtain ⟨⟨e, he⟩, hh'⟩ := C82_add_missing (dry := dry) (force := force) (ft := ft) hn hb hi hq1 (Classical.not_not.mp hq2)
        exact fails e (Prod.ext he hh')
    | assemble force a output =>
      have hmain := main_image (W := W) (dry := dry) (c := .assemble force a output) rfl hn hb hi
      cases hbuild : a.build W h with
      | error e =>
        refine fails (.py e) (hmain.trans ?_)
        unfold Command.onImage
        simp only
        rw [hbuild]
      | ok x =>
        obtain ⟨sg, run⟩ := x
        have hmk : makeExe (some k) output sg run = createExecutable ((exeKind output).getD k) output sg run := by
          unfold makeExe
          cases exeKind output <;> rfl
        cases hx : createExecutable ((exeKind output).getD k) output sg run with
        | error e =>
          refine fails (.py e) (hmain.trans ?_)
          unfold Command.onImage
          simp only
          rw [hbuild]
          simp only
          rw [hexe]
          simp only
          rw [hmk, hx]
        | ok x =>
          have hask : Run.asked k W h rn ⟨dry, rn, .assemble force a output⟩ = some ('B', { force := force, dryRun := dry }, .add [(output, x)]) := by
            unfold Run.asked; rw [if_pos rfl]; simp only; rw [hbuild]; simp only; rw [hx]
          exact effect_asked hask (keeps_cmd K hh hqb (hl2 _ _ _ hask) (C82_assemble hn hb hi hbuild hexe (hmk.trans hx)) hq')
  · have hask : r.asked k W h name = none := by
      unfold Run.asked
      split
      · next e =>
        obtain ⟨dry, rn, cmd⟩ := r
        simp only at e ht
        subst e
        cases cmd with
        | vtoc c => cases c with
          | true => exact absurd ⟨rfl, rfl, hn⟩ ht
          | false => rfl
        | add f ft ps => exact absurd (show if rn = [0x2e] then _ else rn = rn by rw [if_neg hn]) ht
        | delete => exact absurd ⟨rfl, hn⟩ ht
        | assemble f a o => exact absurd (show rn = if rn = [0x2e] then o else rn by rw [if_neg hn]) ht
        | list | crc | segments | create | boot | extract => rfl
      · rfl
    have he : r.effect k W h name M = M := by
      unfold Run.effect
      rw [hask]
      cases (r.cmd.main W r.dry r.name h).1 <;> rfl
    rw [he]
    exact keeps_same hs ((C82_footprint W r.dry r.name r.cmd h).same name ht)

theorem keeps_runs (K : Keeper W k P Q I) {name : Bytes} (hn : name ≠ [0x2e]) : ∀ (rs : List Run) (M : FMap) (h : Host),
    StoresAs I name M h → (∀ h' ∈ seenHosts W rs h, ∀ b, h'.files.get name = some b → Q b) → RunsLegal P k W name M rs h →
    StoresAs I name (runsEffect k W name M rs h) (runs W rs h).2 := by
  intro rs
  induction rs with
  | nil => intro M h hs _ _; exact hs
  | cons r rs ih =>
    intro M h hs hq hl
    refine ih _ _ (keeps_run K hn hs (hq h (by simp [seenHosts])) (hq _ ?_) hl.1) (fun h' hh' => hq h' (by simp [seenHosts, hh'])) hl.2
    cases rs <;> simp [seenHosts]

/-! ### Atari DOS -/

/-- an Atari DOS disk with the files `M`, and is taken for one -/
abbrev AtariDisk (L : Libs) (hd : AHeader) (M : FMap) (b : Bytes) : Prop := Holds hd b M ∧ AtariFile L hd b

/-- the file `name` of the machine is an Atari DOS disk with the files `M`, and is taken for one -/
abbrev Stores (L : Libs) (hd : AHeader) : Bytes → FMap → Host → Prop := StoresAs (AtariDisk L hd)

/-- within the limits of Atari DOS -/
abbrev AtariLegal : Char → Opts → Cmd → FMap → Prop := fun _ o c M => c.Legal o M

/-- the disk is recognised -/
theorem stores_detect {L : Libs} {hd : AHeader} {b : Bytes} {M : FMap} (hh : AtariDisk L hd M b) :
    ∃ m segs k, AImg.open b = .ok m ∧ detect L b = .ok (.atari m segs, k) := by
  obtain ⟨⟨m, ds, h1, h2, h3, h4, h5⟩, ha⟩ := hh
  obtain ⟨fs, hseg, _⟩ := segments_mounted h2
  subst h3
  subst h4
  obtain ⟨k, _, hd⟩ := C68_atari (plainDisk_mounted h2 (ha.plain _ rfl rfl) ha.usual) ha.notKboot ha.notSparta h2.1 hseg
  exact ⟨m, _, k, h1, hd⟩

theorem atari_keeper (W : World) {hd : AHeader} (hmax : hd.maxSectors < 1280) :
    Keeper W .xex AtariLegal (fun _ => True) (AtariDisk W.libs hd) where
  detects hh _ := by
    obtain ⟨m, segs, k, -, hi⟩ := stores_detect hh
    exact ⟨_, _, hi, rfl, rfl⟩
  step := by
    intro M b t o c hh _ hl _
    obtain ⟨h1, h2, h3⟩ := C80_history (t := t) hmax [(o, c)] b M hh.1 hh.2 ⟨hl, trivial⟩
    exact ⟨h2, h3⟩

/-- **C84, one run.** Whatever run of the program is done, on this image or any other one, the disk holds the files the run asks
for. -/
theorem C84_run {hd : AHeader} (hmax : hd.maxSectors < 1280) {name : Bytes} (hn : name ≠ [0x2e]) {M : FMap} {h : Host}
    (hs : Stores W.libs hd name M h) {r : Run} (hl : r.Legal AtariLegal .xex W h name M) :
    Stores W.libs hd name (r.effect .xex W h name M) (r.cmd.main W r.dry r.name h).2 :=
  keeps_run (atari_keeper W hmax) hn hs (fun _ _ => trivial) (fun _ _ => trivial) hl

/-- **C84.** Over any sequence of legal runs of the program, of any commands on any images, the disk holds exactly the files the runs
ask for. -/
theorem C84_runs {hd : AHeader} (hmax : hd.maxSectors < 1280) {name : Bytes} (hn : name ≠ [0x2e]) (rs : List Run) (M : FMap) (h : Host)
    (hs : Stores W.libs hd name M h) (hl : RunsLegal AtariLegal .xex W name M rs h) :
    Stores W.libs hd name (runsEffect .xex W name M rs h) (runs W rs h).2 :=
  keeps_runs (atari_keeper W hmax) hn rs M h hs (fun _ _ _ _ => trivial) hl

/-- **C84, from the start.** The image made by `create dos2sd.atr` is a disk without files, whatever else is on the machine. -/
theorem C84_created {name : Bytes} (hn : name ≠ [0x2e]) {force : Bool} {h : Host} (hf : force = true ∨ h.files.get name = none)
    {text : Bytes} {n : Bytes} (ht : Selects W text (n, sdDisk)) (ha : AtariFile W.libs sdH sdDisk) :
    ((Command.create force text).main W false name h).1 = .ok () ∧ Stores W.libs sdH name [] ((Command.create force text).main W false name h).2 := by
  obtain ⟨m, segs, k, -, hi⟩ := stores_detect ⟨holds_sd, ha⟩
  refine ⟨?_, ?_⟩
  · rw [C83_result hn ht hf, hi]; rfl
  · rw [(C83_create W force text name h hn).1 _ ht hf]
    exact ⟨sdDisk, by show (h.files.put name sdDisk).get name = _; rw [get_put, if_pos rfl], holds_sd, ha⟩

/-- **C84, extracting.** `extract` on the disk puts the selected files on the machine with exactly their contents. -/
theorem C84_extract {hd : AHeader} {name : Bytes} (hn : name ≠ [0x2e]) {M : FMap} {h : Host} (hs : Stores W.libs hd name M h)
    {x : XOpts} (hap : x.Apart M) (names : List Bytes) :
    ((Command.extract x names).main W false name h).1 = .ok () ∧
    (∀ n d, (n, d) ∈ M → (x.all = true ∨ n ∈ names) → ((Command.extract x names).main W false name h).2.files.get (x.path n) =
      match h.files.get (x.path n), x.force with
      | some old, false => some old
      | _, _ => some (if x.text then textBytes d else d)) := by
  obtain ⟨b, hb, hh, ha⟩ := hs
  obtain ⟨m, segs, k, hopen, hi⟩ := stores_detect ⟨hh, ha⟩
  obtain ⟨m', h1, h2, h3, -⟩ := C59_extract (o := { x with dryRun := false }) hh rfl hap names h
  rw [hopen] at h1
  cases h1
  rw [main_image rfl hn hb hi]
  unfold Command.onImage
  simp only
  rw [if_neg (by simp [Image.isDisk])]
  have e : (Image.atari m segs).listing = m.listing := rfl
  rw [e]
  revert h2 h3
  generalize extractFiles _ m.listing names h = y
  intro h2 h3
  obtain ⟨r, s⟩ := y
  simp only at h2
  subst h2
  exact ⟨rfl, h3⟩

/-- **C84, adding.** A file of the machine with a new 8.3 name that fits on the disk is added: the run succeeds. -/
theorem C84_add_fits {hd : AHeader} (hmax : hd.maxSectors < 1280) {name p d b : Bytes} (hn : name ≠ [0x2e]) {M : FMap} {h : Host}
    {force : Bool} {ft : List Char} (hb : h.files.get name = some b) (hh : Holds hd b M) (ha : AtariFile W.libs hd b) (hp : h.files.get p = some d)
    (hnew : baseName p ∉ M.keys) (hc : Canon83 (baseName p)) (hne : d ≠ []) (hslot : M.length < 64)
    (hfit : sectorsNeeded hd d.length ≤ (freePool hd b).length) :
    ((Command.add force ft [p]).main W false name h).1 = .ok () ∧
    Stores W.libs hd name (M.put (baseName p) d) ((Command.add force ft [p]).main W false name h).2 ∧
    ∀ q, q ≠ name → ((Command.add force ft [p]).main W false name h).2.files.get q = h.files.get q := by
  obtain ⟨m, segs, k, hopen, hi⟩ := stores_detect ⟨hh, ha⟩
  have hdel : M.del (baseName p) = M := by
    unfold FMap.del
    rw [List.filter_eq_self]
    intro x hx
    have : x.1 ≠ baseName p := fun e => hnew (e ▸ List.mem_map.mpr ⟨x, hx, rfl⟩)
    simpa using this
  have hl : (Cmd.add [(baseName p, d)]).Legal { force := force } M := ⟨hc, hne, by rw [hdel]; exact hslot, trivial⟩
  have hc82 := C82_add (dry := false) (force := force) (ft := ft) (paths := [p]) (content := fun _ => d) hn hb hi rfl
    (fun q hq => by rw [List.mem_singleton.mp hq]; exact hp)
  have hst := keeps_cmd (atari_keeper W hmax) ⟨hh, ha⟩ trivial (t := filetypeChar ft) hl hc82 (fun _ _ => trivial)
  obtain ⟨e, -, -⟩ := C80_history (t := filetypeChar ft) hmax [({ force := force }, .add [(baseName p, d)])] b M hh ha ⟨hl, trivial⟩
  have hok : ((Cmd.add [(baseName p, d)]).run atariDriver { force := force } b).1 = .ok () := by
    obtain ⟨m', ds, h1, h2, h3, h4, h5⟩ := id hh
    have r : Rep hd m' M := ⟨ds, h2, h4, h5⟩
    rcases r.write hnew hc hne hslot with ⟨m'', k1, k2, _⟩ | ⟨_, k1⟩
    · have e1 : saveFile atariDriver { force := force } (baseName p) d m' = (.ok true, m'') := by
        unfold saveFile finishSave
        rw [r.find_not hnew]
        simp only [Bool.false_eq_true, if_false]
        rw [show atariDriver.write (baseName p) d m' = (.ok (), m'') from k1]
      unfold Cmd.run
      rw [show atariDriver.load b = .ok m' from h1]
      simp only
      rw [show Cmd.exec atariDriver { force := force } (.add [(baseName p, d)]) m' = (.ok true, m'') from by
        show addLoop atariDriver _ _ _ _ = _
        unfold addLoop addLoop
        rw [e1]]
    · rw [h4, h3] at k1; omega
  have e2 : ((Cmd.add [(baseName p, d)]).run (imageDriver W.libs (filetypeChar ft)) { force := force } b).1 = .ok () := by
    have := congrArg Prod.fst e
    simp only [runHistory] at this
    injection this with this
    rw [this]; exact hok
  have e3 : ((Command.add force ft [p]).main W false name h).1 = .ok () := by rw [hc82.1]; erw [e2]; rfl
  rw [e3] at hst
  refine ⟨e3, ?_, fun q hq => by rw [hc82.2.2, if_neg hq]⟩
  have e4 : (Cmd.add [(baseName p, d)]).spec { force := force } M = M.put (baseName p) d := by
    simp [Cmd.spec, FMap.lastSkipped, FMap.addAll, FMap.addOne, hnew]
  rw [← e4]
  exact hst

/-- **C84, round trip.** `create`, `add` and `extract -a` one after the other on a new image: every file with an 8.3 name and 1 to
88375 bytes comes out again as it was. -/
theorem C84_roundtrip {name p d text n : Bytes} {h : Host} {x : XOpts} (hn : name ≠ [0x2e]) (hnone : h.files.get name = none)
    (ht : Selects W text (n, sdDisk)) (ha : AtariFile W.libs sdH sdDisk) (hp : h.files.get p = some d) (hc : Canon83 (baseName p))
    (h1 : 0 < d.length) (h2 : d.length ≤ 88375) (hx : x.all = true) (hxf : x.force = true) (hxt : x.text = false) :
    let s := runs W [⟨false, name, .create false text⟩, ⟨false, name, .add false [] [p]⟩, ⟨false, name, .extract x []⟩] h
    s.2.files.get (x.path (baseName p)) = some d ∧ ∀ r ∈ s.1, r = .ok () := by
  have hpn : p ≠ name := fun e => by rw [e, hnone] at hp; cases hp
  obtain ⟨c1, c2⟩ := C84_created hn (force := false) (.inr hnone) ht ha
  have c3 := (C83_create W false text name h hn).1 _ ht (.inr hnone)
  intro s
  have hp1 : ((Command.create false text).main W false name h).2.files.get p = some d := by
    rw [c3]
    show (h.files.put name sdDisk).get p = _
    rw [get_put, if_neg hpn]; exact hp
  have hb1 : ((Command.create false text).main W false name h).2.files.get name = some sdDisk := by
    rw [c3]
    show (h.files.put name sdDisk).get name = _
    rw [get_put, if_pos rfl]
  obtain ⟨a1, a2, -⟩ := C84_add_fits (by decide) hn (force := false) (ft := []) hb1 holds_sd ha hp1 (by simp [FMap.keys]) hc
    (by intro e; rw [e] at h1; cases h1) (by decide) (by rw [sdDisk_pool]; show (d.length + 125 - 1) / 125 ≤ 707; omega)
  obtain ⟨x1, x2⟩ := C84_extract hn a2 (x := x) (by
    intro u hu v hv _
    have hM : FMap.put [] (baseName p) d = [(baseName p, d)] := rfl
    rw [hM] at hu hv
    rw [List.mem_singleton.mp hu, List.mem_singleton.mp hv]) []
  refine ⟨?_, ?_⟩
  · have := x2 (baseName p) d (List.mem_singleton.mpr rfl) (.inl hx)
    rw [hxf, hxt] at this
    refine this.trans ?_
    split <;> first | rfl | (next h0 => cases h0)
  · intro r hr
    simp only [s, runs, List.mem_cons, List.not_mem_nil, or_false] at hr
    rcases hr with rfl | rfl | rfl
    · exact c1
    · exact a1
    · exact x1

/-! ### DOS 3.3 -/

/-- a DOS 3.3 disk with the files `M`, which is taken for one if it contains no archive -/
abbrev Dos33Disk (L : Libs) (cat : List Nat) (M : FMap) (b : Bytes) : Prop := Holds33 cat b M ∧ Dos33File L b

/-- within the limits of DOS 3.3: no text files -/
abbrev Dos33Legal (cat : List Nat) : Char → Opts → Cmd → FMap → Prop := fun t o c M => t ≠ 'T' ∧ c.LegalG Fits33 (7 * (cat.length - 1)) o M

theorem detect33 {L : Libs} {cat : List Nat} {b : Bytes} {M : FMap} (hh : Dos33Disk L cat M b) (hz : L.zip b = .ok none) :
    ∃ m segs t, DImg.open b = .ok m ∧ detect L b = .ok (.dos33 m segs, t) := by
  obtain ⟨⟨m, ds, h1, h2, h3, h4⟩, ha⟩ := hh
  subst h3
  obtain ⟨segs, t, -, hd⟩ := C74_detected_partial h2 ha hz
  exact ⟨m, segs, t, h1, hd⟩

theorem dos33_keeper (W : World) (cat : List Nat) :
    Keeper W .bsave (Dos33Legal cat) (fun b => W.libs.zip b = .ok none) (Dos33Disk W.libs cat) where
  detects hh hz := by
    obtain ⟨m, segs, t, -, hi⟩ := detect33 hh hz
    exact ⟨_, _, hi, rfl, rfl⟩
  step := by
    intro M b t o c hh hz hl hz'
    obtain ⟨h1, h2, h3⟩ := C80_history33_partial [(t, o, c)] b M hh.1 hh.2 (fun x hx => by rw [List.mem_singleton.mp hx]; exact hl.1)
      (fun f hf => by
        simp only [withImages, List.map_cons, List.map_nil, seenFiles, List.mem_cons, List.not_mem_nil, or_false] at hf
        rcases hf with rfl | rfl
        · exact hz
        · exact hz') ⟨hl.2, trivial⟩
    exact ⟨h2, h3⟩

/-- **C84, DOS 3.3 (partial).** Over any sequence of legal runs the disk holds exactly the files the runs ask for, provided `zipfile`
finds no archive in it in between (C74_zip_hides). -/
theorem C84_runs33_partial {cat : List Nat} {name : Bytes} (hn : name ≠ [0x2e]) (rs : List Run) (M : FMap) (h : Host)
    (hs : StoresAs (Dos33Disk W.libs cat) name M h) (hz : ∀ h' ∈ seenHosts W rs h, ∀ b, h'.files.get name = some b → W.libs.zip b = .ok none)
    (hl : RunsLegal (Dos33Legal cat) .bsave W name M rs h) :
    StoresAs (Dos33Disk W.libs cat) name (runsEffect .bsave W name M rs h) (runs W rs h).2 :=
  keeps_runs (dos33_keeper W cat) hn rs M h hs hz hl

/-- **C84, DOS 3.3, from the start.** The image made from a blank template is a disk without files. -/
theorem C84_created33 {name t : Bytes} (hn : name ≠ [0x2e]) {force : Bool} {h : Host} (hf : force = true ∨ h.files.get name = none)
    {text : Bytes} {n : Bytes} (ht : Selects W text (n, t)) (ht33 : Template33 t) (ha : Dos33File W.libs t) (hz : W.libs.zip t = .ok none) :
    ((Command.create force text).main W false name h).1 = .ok () ∧
    StoresAs (Dos33Disk W.libs catBlank33) name [] ((Command.create force text).main W false name h).2 := by
  have hm : Holds33 catBlank33 t [] :=
    ⟨mount33 t [], [], (mounted33_mount (template33_consistent ht33)).1, mounted33_mount (template33_consistent ht33), mount33_bytes _ _, List.Perm.refl _⟩
  obtain ⟨m, segs, k, -, hi⟩ := detect33 ⟨hm, ha⟩ hz
  refine ⟨?_, ?_⟩
  · rw [C83_result hn ht hf, hi]; rfl
  · rw [(C83_create W force text name h hn).1 _ ht hf]
    exact ⟨t, by show (h.files.put name t).get name = _; rw [get_put, if_pos rfl], hm, ha⟩

/-- **C84, DOS 3.3, extracting.** `extract` puts the selected files on the machine, filled up to whole sectors. -/
theorem C84_extract33 {cat : List Nat} {name : Bytes} (hn : name ≠ [0x2e]) {M : FMap} {h : Host} (hs : StoresAs (Dos33Disk W.libs cat) name M h)
    (hz : ∀ b, h.files.get name = some b → W.libs.zip b = .ok none) {x : XOpts} (hap : x.Apart M) (names : List Bytes) :
    ((Command.extract x names).main W false name h).1 = .ok () ∧
    (∀ n d, (n, d) ∈ M → (x.all = true ∨ n ∈ names) → ((Command.extract x names).main W false name h).2.files.get (x.path n) =
      match h.files.get (x.path n), x.force with
      | some old, false => some old
      | _, _ => some (if x.text then textBytes (padded33 d) else padded33 d)) := by
  obtain ⟨b, hb, hh, ha⟩ := hs
  obtain ⟨m, segs, k, hopen, hi⟩ := detect33 ⟨hh, ha⟩ (hz b hb)
  obtain ⟨m', h1, h2, h3, -⟩ := C59_extract33 (o := { x with dryRun := false }) hh rfl hap names h
  rw [hopen] at h1
  cases h1
  rw [main_image rfl hn hb hi]
  unfold Command.onImage
  simp only
  rw [if_neg (by simp [Image.isDisk])]
  have e : (Image.dos33 m segs).listing = m.listing.map fun x => (x.1, x.2.2) := rfl
  rw [e]
  revert h2 h3
  generalize extractFiles _ (m.listing.map fun x => (x.1, x.2.2)) names h = y
  intro h2 h3
  obtain ⟨r, s⟩ := y
  simp only at h2
  subst h2
  exact ⟨rfl, h3⟩

/-! ### examples -/

/-- a machine with one file, and the program with its blank disk -/
def tripHost (d : Bytes) : Host := { files := [(ascii "src/A.TXT", d)] }
def tripWorld : World := { libs := magicLibs, templates := shippedNames.map fun n => (n, sdDisk) }

theorem trip_selects : Selects tripWorld (ascii "dos2sd.atr") (ascii "dos2sd.atr", sdDisk) :=
  C83_shipped (W := tripWorld) (by unfold tripWorld; rw [List.map_map]; exact List.map_id _) _
    (List.mem_map.mpr ⟨ascii "dos2sd.atr", by decide +kernel, rfl⟩)

example : (runs tripWorld [⟨false, ascii "D.ATR", .create false (ascii "dos2sd.atr")⟩, ⟨false, ascii "D.ATR", .add false [] [ascii "src/A.TXT"]⟩,
    ⟨false, ascii "D.ATR", .extract { all := true, force := true, dir := some (ascii "out") } []⟩] (tripHost dataB)).2.files.get (ascii "out/A.TXT") = some dataB :=
  (C84_roundtrip (W := tripWorld) (p := ascii "src/A.TXT") (h := tripHost dataB) (x := { all := true, force := true, dir := some (ascii "out") })
    (by decide) rfl trip_selects atariFile_sd rfl ⟨by decide, by decide⟩ (by rw [dataB_length]; decide) (by rw [dataB_length]; decide) rfl rfl rfl).1

/-- the hypotheses of the history theorem are met by adding, deleting, clearing and listing, on this image and on another one -/
example (h : Host) (hp : h.files.get (ascii "src/A.TXT") = some dataA) :
    RunsLegal AtariLegal .xex tripWorld (ascii "D.ATR") [] [⟨false, ascii "D.ATR", .add false [] [ascii "src/A.TXT"]⟩, ⟨false, ascii "D.ATR", .vtoc true⟩,
      ⟨true, ascii "E.ATR", .delete false [nameA]⟩, ⟨false, ascii "D.ATR", .delete false [nameA]⟩, ⟨false, ascii "D.ATR", .list false true []⟩] h := by
  refine ⟨⟨fun _ => ⟨rfl, trivial⟩, ?_⟩, ⟨fun _ => ⟨rfl, trivial⟩, ?_⟩, ⟨fun ht => absurd ht.1 (by decide), ?_⟩, ⟨fun _ => ⟨rfl, trivial⟩, ?_⟩, ⟨fun ht => ht.elim, ?_⟩, trivial⟩
  · intro t o c hc
    unfold Run.asked at hc
    rw [if_pos rfl] at hc
    simp only [List.mem_singleton, forall_eq, hp] at hc
    cases hc
    exact ⟨⟨by decide, by decide⟩, by rw [hp]; exact dataA_ne, by decide, trivial⟩
  all_goals
    intro t o c hc
    simp only [Run.asked] at hc
    revert hc
    split
    · intro hc; cases hc; try exact trivial
    · intro hc; cases hc

/-- a DOS 3.3 disk made from the blank template, two runs on it, one with a file that does not exist -/
example (h : Host) (hs : StoresAs (Dos33Disk magicLibs catBlank33) (ascii "D.DSK") [] h) (hp : h.files.get (ascii "src/A.TXT") = some dataA) :
    StoresAs (Dos33Disk magicLibs catBlank33) (ascii "D.DSK") (runsEffect .bsave tripWorld (ascii "D.DSK") []
      [⟨false, ascii "D.DSK", .add false ['A'] [ascii "src/A.TXT"]⟩, ⟨false, ascii "D.DSK", .vtoc true⟩] h)
      (runs tripWorld [⟨false, ascii "D.DSK", .add false ['A'] [ascii "src/A.TXT"]⟩, ⟨false, ascii "D.DSK", .vtoc true⟩] h).2 := by
  refine C84_runs33_partial (W := tripWorld) (by decide) _ _ _ hs (fun _ _ _ _ => rfl) ⟨⟨fun _ => ⟨rfl, trivial⟩, ?_⟩, ⟨fun _ => ⟨rfl, trivial⟩, ?_⟩, trivial⟩
  · intro t o c hc
    unfold Run.asked at hc
    rw [if_pos rfl] at hc
    simp only [List.mem_singleton, forall_eq, hp] at hc
    cases hc
    exact ⟨by decide, ⟨by decide, show ∀ c ∈ _, c < 0x80 by decide, by rw [hp]; exact dataA_ne⟩, by decide, trivial⟩
  · intro t o c hc
    simp only [Run.asked] at hc
    cases hc
    exact ⟨by decide, trivial⟩

/-- `create` with the blank DOS 3.3 disk -/
example (name : Bytes) (hn : name ≠ [0x2e]) (h : Host) (hf : h.files.get name = none) :
    StoresAs (Dos33Disk magicLibs catBlank33) name [] ((Command.create false (ascii "33")).main
      { libs := magicLibs, templates := [(ascii "dos33.dsk", blank33), (ascii "dos2sd.atr", sdDisk)] } false name h).2 := by
  refine (C84_created33 (t := blank33) (n := ascii "dos33.dsk") hn (.inr hf) ?_ blank33_template (dos33File_blank _) rfl).2
  refine matching_iff.mp ?_
  unfold World.matching
  rw [List.filter_cons_of_pos (by decide), List.filter_cons_of_neg (by decide)]
  rfl

end Atr
