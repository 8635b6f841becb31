import Verif.Model.Program
/-! # What a run of the program may touch -/
namespace Atr

/-- the paths a command may write to -/
def Command.Targets (W : World) (h : Host) (name : Bytes) (p : Bytes) : Command → Prop
  | .list .. | .crc _ | .segments => False
  | .vtoc clear => p = name ∧ clear = true ∧ name ≠ [0x2e]
  | .extract x names => name ≠ [0x2e] ∧ ∃ b i k n, h.files.get name = some b ∧ detect W.libs b = .ok (i, k) ∧
      n ∈ i.listing.map (·.1) ∧ (x.all = true ∨ n ∈ names) ∧ p = x.path n
  | .add _ _ paths => if name = [0x2e] then ∃ q ∈ paths, p = baseName q else p = name
  | .delete .. => p = name ∧ name ≠ [0x2e]
  | .assemble _ _ output => p = if name = [0x2e] then output else name
  | .create .. | .boot .. => p = name

/-- `h'` has the files of `h` except that files at the paths `S` may be new or have other contents -/
structure Changed (S : Bytes → Prop) (h h' : Host) : Prop where
  same : ∀ p, ¬ S p → h'.files.get p = h.files.get p
  kept : ∀ p, h.files.get p ≠ none → h'.files.get p ≠ none
  dirs : ∀ d ∈ h.dirs, d ∈ h'.dirs

/-- a run: options, name of the image, command -/
structure Run where
  dry : Bool := false
  name : Bytes
  cmd : Command

/-- several runs of the program one after the other -/
def runs (W : World) : List Run → Host → List (Except CErr Unit) × Host
  | [], h => ([], h)
  | r :: rs, h =>
    let x := r.cmd.main W r.dry r.name h
    let rest := runs W rs x.2
    (x.1 :: rest.1, rest.2)

/-- what a run asks of the image file `name`, with the file type (`B` if not given): the files given are read from the machine, an
executable is made of the segments given, of the kind `k` if the name does not say.  `none`: nothing, or the run fails before -/
def Run.asked (k : ExeKind) (W : World) (h : Host) (name : Bytes) (r : Run) : Option (Char × Opts × Cmd) :=
  if r.name = name then
    match r.cmd with
    | .vtoc true => some ('B', { dryRun := r.dry }, .shred)
    | .add force ft paths =>
      if ∀ p ∈ paths, h.files.get p ≠ none then
        some (match ft with | [c] => c | _ => 'B', { force := force, dryRun := r.dry },
          .add (paths.map fun p => (baseName p, (h.files.get p).getD [])))
      else none
    | .delete _ names => some ('B', { dryRun := r.dry }, .remove names)
    | .assemble force a output =>
      match a.build W h with
      | .error _ => none
      | .ok (segs, run) =>
        match createExecutable ((exeKind output).getD k) output segs run with
        | .error _ => none
        | .ok x => some ('B', { force := force, dryRun := r.dry }, .add [(output, x)])
    | _ => none
  else none

/-- the files on the image after the run -/
def Run.effect (k : ExeKind) (W : World) (h : Host) (name : Bytes) (M : FMap) (r : Run) : FMap :=
  match (r.cmd.main W r.dry r.name h).1, r.asked k W h name with
  | .ok _, some (_, o, c) => c.spec o M
  | _, _ => M

/-- The run does not write over the image file `name` from outside (by creating or extracting a file of this name), and what it asks
for is within the limits `P` of the format. -/
def Run.Legal (P : Char → Opts → Cmd → FMap → Prop) (k : ExeKind) (W : World) (h : Host) (name : Bytes) (M : FMap) (r : Run) : Prop :=
  (r.cmd.Targets W h r.name name → r.name = name ∧
    match r.cmd with
    | .create .. | .boot .. | .extract .. => False
    | _ => True) ∧
  ∀ t o c, r.asked k W h name = some (t, o, c) → P t o c M

/-- every run is legal when it is done -/
def RunsLegal (P : Char → Opts → Cmd → FMap → Prop) (k : ExeKind) (W : World) (name : Bytes) : FMap → List Run → Host → Prop
  | _, [], _ => True
  | M, r :: rs, h => r.Legal P k W h name M ∧ RunsLegal P k W name (r.effect k W h name M) rs (r.cmd.main W r.dry r.name h).2

/-- the files on the image after several runs -/
def runsEffect (k : ExeKind) (W : World) (name : Bytes) : FMap → List Run → Host → FMap
  | M, [], _ => M
  | M, r :: rs, h => runsEffect k W name (r.effect k W h name M) rs (r.cmd.main W r.dry r.name h).2

/-- the machine before, between and after the runs -/
def seenHosts (W : World) : List Run → Host → List Host
  | [], h => [h]
  | r :: rs, h => h :: seenHosts W rs (r.cmd.main W r.dry r.name h).2

end Atr
