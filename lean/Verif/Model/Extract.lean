import Verif.Spec.Cli
/-!
# Extracting files: `extract_files`, `/repo/atrcopy/__init__.py:100-128`

An image is given by its listing: the names of `image.files` in order, each with the outcome of `image.get_file`.  The host is
a map from paths to file contents and a list of existing directories.  Host errors (no permission, path is a directory) are
left out; `os.makedirs` is recorded as one directory.  Paths are byte strings (code points below 256), POSIX rules.
-/
namespace Atr

/-- files and directories of the machine running the program -/
structure Host where
  files : FMap := []
  dirs : List Bytes := []
deriving DecidableEq

/-- `options` of the `extract` command -/
structure XOpts where
  all : Bool := false
  lower : Bool := false
  dir : Option Bytes := none
  text : Bool := false
  force : Bool := false
  dryRun : Bool := false
deriving DecidableEq

/-- `str.lower()` for one code point below 256 -/
def lowerByte (b : UInt8) : UInt8 :=
  if (65 ≤ b.toNat ∧ b.toNat ≤ 90) ∨ (192 ≤ b.toNat ∧ b.toNat ≤ 222 ∧ b.toNat ≠ 215) then b + 32 else b

/-- `posixpath.join(d, n)`: an absolute `n` discards `d` -/
def joinPath (d n : Bytes) : Bytes :=
  if n.head? = some 0x2f then n
  else if d = [] ∨ d.getLast? = some 0x2f then d ++ n
  else d ++ 0x2f :: n

/-- lines 109-115: where a file goes -/
def XOpts.path (o : XOpts) (name : Bytes) : Bytes :=
  let output := if o.lower then name.map lowerByte else name
  match o.dir with
  | none => output
  | some d => if d = [] then output else joinPath d output

/-- `data.replace` of one byte by another, lines 122-124 -/
def textBytes (data : Bytes) : Bytes :=
  (data.map fun x => if x = 0x7f then 0x09 else x).map fun x => if x = 0x9b then 0x0a else x

/-- lines 112-115: make the output directory when it does not exist -/
def XOpts.makeDir (o : XOpts) (s : Host) : Host :=
  match o.dir with
  | none => s
  | some d => if d = [] ∨ d ∈ s.dirs then s else { s with dirs := d :: s.dirs }

/-- body of the loop, lines 109-128.  The directory is made before `dry_run` is looked at. -/
def extractOne (o : XOpts) (e : Bytes × Except Err Bytes) : Proc Host Unit := fun s =>
  let s := o.makeDir s
  if o.dryRun then (.ok (), s)
  else
    match e.2 with
    | .error x => (.error x, s)
    | .ok data =>
      if o.path e.1 ∈ s.files.keys ∧ o.force = false then (.ok (), s)
      else (.ok (), { s with files := s.files.put (o.path e.1) (if o.text then textBytes data else data) })

/-- the loop over the entries found -/
def extractLoop (o : XOpts) : List (Bytes × Except Err Bytes) → Proc Host Unit
  | [] => fun s => (.ok (), s)
  | e :: es => fun s =>
    match extractOne o e s with
    | (.error x, s) => (.error x, s)
    | (.ok _, s) => extractLoop o es s

/-- the entries to extract, lines 101-108: all files, or the first file of each given name; unknown names are skipped -/
def XOpts.select (o : XOpts) (listing : List (Bytes × Except Err Bytes)) (names : List Bytes) : List (Bytes × Except Err Bytes) :=
  if o.all then listing else names.filterMap fun n => listing.find? (fun e => e.1 == n)

/-- `extract_files` -/
def extractFiles (o : XOpts) (listing : List (Bytes × Except Err Bytes)) (names : List Bytes) : Proc Host Unit :=
  extractLoop o (o.select listing names)

end Atr
