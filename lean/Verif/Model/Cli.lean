import Verif.Model.AtariDos
/-!
# Command line: `/repo/atrcopy/__init__.py`

The commands only use a small interface of disk images, collected in `Driver`, so the same definitions serve all image
classes.  The image file is a byte string; a command loads it, works in memory and rewrites the file with `image.save()`.
An exception ends the process, so nothing is saved then.  Host file names are given as the base name (`os.path.basename`,
line 156) together with the contents read.  Output to the terminal is left out.
-/
namespace Atr

/-- What `__init__.py` uses of an image: `find_diskimage` (85-98), `image.bytes`, `find_dirent`, `delete_file`,
`write_file` (with a fixed file type), `shred`. -/
structure Driver (σ : Type) where
  load : Bytes → Except Err σ
  bytes : σ → Bytes
  find : σ → Bytes → Except Err Unit
  delete : Bytes → Proc σ Unit
  write : Bytes → Bytes → Proc σ Unit
  shred : Proc σ Unit

/-- `options.force`, `options.dry_run` -/
structure Opts where
  force : Bool := false
  dryRun : Bool := false
deriving DecidableEq

variable {σ : Type} (D : Driver σ) (o : Opts)

/-- last lines of `save_file`, `__init__.py:141-145` -/
def finishSave (name data : Bytes) : Proc σ Bool := fun m =>
  if o.dryRun then (.ok false, m)
  else
    match D.write name data m with
    | (.error e, m) => (.error e, m)
    | (.ok _, m) => (.ok true, m)

/-- `save_file`, `__init__.py:131-145`.  `FileNotFound` from either call in the `try` is swallowed. -/
def saveFile (name data : Bytes) : Proc σ Bool := fun m =>
  match D.find m name with
  | .error .fileNotFound => finishSave D o name data m
  | .error e => (.error e, m)
  | .ok _ =>
    if o.force then
      match D.delete name m with
      | (.error .fileNotFound, m) => finishSave D o name data m
      | (.error e, m) => (.error e, m)
      | (.ok _, m) => finishSave D o name data m
    else (.ok false, m)

/-- loop of `add_files`, `__init__.py:153-157`: `changed` is overwritten by each file. -/
def addLoop : List (Bytes × Bytes) → Bool → Proc σ Bool
  | [], changed => fun m => (.ok changed, m)
  | (name, data) :: fs, _ => fun m =>
    match saveFile D o name data m with
    | (.error e, m) => (.error e, m)
    | (.ok c, m) => addLoop fs c m

/-- loop of `remove_files`, `__init__.py:164-173` -/
def removeLoop : List Bytes → Bool → Proc σ Bool
  | [], changed => fun m => (.ok changed, m)
  | name :: ns, changed => fun m =>
    match D.find m name with
    | .error .fileNotFound => removeLoop ns changed m
    | .error e => (.error e, m)
    | .ok _ =>
      if o.dryRun then removeLoop ns changed m
      else
        match D.delete name m with
        | (.error e, m) => (.error e, m)
        | (.ok _, m) => removeLoop ns true m

/-- the commands that change an image -/
inductive Cmd
  | add (files : List (Bytes × Bytes))
  | remove (names : List Bytes)
  | shred

/-- in-memory part of a command; the result says whether `image.save()` is called
(`add_files` 148-159, `remove_files` 162-175, `shred_image` 300-304) -/
def Cmd.exec : Cmd → Proc σ Bool
  | .add files => addLoop D o files false
  | .remove names => removeLoop D o names false
  | .shred => fun m =>
    if o.dryRun then (.ok false, m)
    else
      match D.shred m with
      | (.error e, m) => (.error e, m)
      | (.ok _, m) => (.ok true, m)

/-- a whole run on the image file `b`: result and contents of the file afterwards
(`save`, diskimages.py:186-195, writes `self.bytes`) -/
def Cmd.run (c : Cmd) (b : Bytes) : Except Err Unit × Bytes :=
  match D.load b with
  | .error e => (.error e, b)
  | .ok m =>
    match c.exec D o m with
    | (.error e, _) => (.error e, b)
    | (.ok false, _) => (.ok (), b)
    | (.ok true, m) => (.ok (), D.bytes m)

/-- a history of commands, each with its options: results and final file -/
def runHistory : List (Opts × Cmd) → Bytes → List (Except Err Unit) × Bytes
  | [], b => ([], b)
  | (o, c) :: cs, b =>
    let r := c.run D o b
    let rest := runHistory cs r.2
    (r.1 :: rest.1, rest.2)

/-- Atari DOS images as seen by the command line.  `shred` is called without argument: fill value 0
(`__init__.py:303`, diskimages.py:396). The container and parser selection of `find_diskimage` is left out: the file is
taken as an Atari DOS image. -/
def atariDriver : Driver AImg where
  load := AImg.open
  bytes := AImg.bytes
  find := fun m name => (m.findDirent name).map fun _ => ()
  delete := AImg.deleteFile
  write := AImg.writeFile
  shred := AImg.shred 0

end Atr
