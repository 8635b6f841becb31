import Verif.Model.Images
import Verif.Model.Extract
import Verif.Model.ObjFiles
import Verif.Model.Delivery
import Verif.Spec.Dos33
/-!
# The whole program: `run`, `/repo/atrcopy/__init__.py:409-637`, behind the argument parser

The files of the machine are a `Host` (see `Extract`): paths are code points below 256, "./n" and "n" are the same path, errors
of the operating system other than a missing file are left out.  What is printed is left out.  `argparse` is replaced by `Command`
(how the arguments get there is the subject of `Args`); source files for `pyatasm` are left out.
-/
namespace Atr

/-- what the program finds on the machine besides the files: decompressors and `zipfile` (`Libs`), and the shipped templates with a
readable `.inf` file -/
structure World where
  libs : Libs
  templates : List (Bytes × Bytes) := []

/-- `-d`, `-b` and `-r` of `assemble` and `boot`.  With `action="append"` and `nargs="*"` each use of an option gives a list; only
the first is used (lines 604-606, 632-634). -/
structure AsmArgs where
  data : List (List (List Char)) := []
  objs : List (List Bytes) := []
  run : List Char := []

/-- the commands with their options, lines 474-534 -/
inductive Command
  | list (sums more : Bool) (names : List Bytes)
  | crc (names : List Bytes)
  | segments
  | vtoc (clear : Bool)
  | extract (x : XOpts) (names : List Bytes)
  | add (force : Bool) (filetype : List Char) (paths : List Bytes)
  | delete (force : Bool) (names : List Bytes)
  | assemble (force : Bool) (a : AsmArgs) (output : Bytes)
  | create (force : Bool) (template : Bytes)
  | boot (force : Bool) (a : AsmArgs)

/-- the name of the current directory -/
def dotName : Bytes := [0x2e]

/-- `open(name, "rb").read()` -/
def Host.read (h : Host) (p : Bytes) : Except Err Bytes :=
  match h.files.get p with
  | some d => .ok d
  | none => .error .ioError

/-- `open(name, "wb").write(data)` -/
def Host.write (h : Host) (p d : Bytes) : Host := { h with files := h.files.put p d }

/-- `os.path.basename` -/
def baseName (p : Bytes) : Bytes := (p.reverse.takeWhile (· ≠ 0x2f)).reverse

/-- `image.files` with what `get_file` gives: names shown by `list` and used by `extract`.  Boot disks, unidentified disks,
cartridges, ROMs, executables have no files (diskimages.py:110, ataridos.py:281, dos33.py:609). -/
def Image.listing : Image → List (Bytes × Except Err Bytes)
  | .atari m _ => m.listing
  | .dos33 m _ => m.listing.map fun x => (x.1, x.2.2)
  | .sparta m _ => m.files.map fun d => (d.filename, d.getFile m.hdr m.bytes)
  | .kboot m _ => [(kbootName, .ok m.exe)]
  | _ => []

/-- does the image have the methods of `DiskImageBase`?  (see `Image.find`) -/
def Image.isDisk : Image → Bool
  | .xex _ | .bin _ => false
  | _ => true

/-- `get_vtoc_object`, diskimages.py:332-335; printing it does not fail.  See `SImg.vtocMap`, `Image.shred`. -/
def Image.vtoc : Image → Except Err Unit
  | .atari m _ => m.getVtocObject.map fun _ => ()
  | .dos33 m _ => m.getVtocMap.map fun _ => ()
  | .sparta m _ => m.vtocMap.map fun _ => ()
  | .kboot .. | .boot .. | .disk .. => .error .indexError
  | .cart .. | .mame .. | .rom _ | .xex _ | .bin _ => .error .attributeError

/-- `default_executable_extension`: "XEX" for Atari disks (ataridos.py:456), "BSAVE" for DOS 3.3 (dos33.py:385), otherwise `None`,
which has no `lower` (executables.py:104).  `AtariDosFile` and `Dos33BinFile` have no `create_executable_file_image`. -/
def Image.exeDefault : Image → Except Err (Option ExeKind)
  | .atari .. | .kboot .. | .sparta .. | .boot .. | .disk .. => .ok (some .xex)
  | .dos33 .. => .ok (some .bsave)
  | .cart .. | .mame .. | .rom _ => .ok none
  | .xex _ | .bin _ => .error .attributeError

/-- the `--filetype` argument as `dos33Driver` takes it: `B` if missing; a text of several letters is not in `text_to_type` and
counts as `B` too (dos33.py:351) -/
def filetypeChar : List Char → Char
  | [c] => c
  | _ => 'B'

/-- the loops of `list_files` and `crc_files`, lines 180-199: the checksum needs the contents of the files shown -/
def crcLoop (names : List Bytes) : List (Bytes × Except Err Bytes) → Except Err Unit
  | [] => .ok ()
  | e :: es =>
    if names.isEmpty || names.contains e.1 then
      match e.2 with
      | .error x => .error x
      | .ok _ => crcLoop names es
    else crcLoop names es

/-- what `dirent.extra_metadata(image)` has to read, lines 189-190: the track/sector list of a DOS 3.3 file (dos33.py:223-228), nothing on other
disks (ataridos.py:133-134) -/
def Image.metaReads : Image → List (Except Err Unit)
  | .dos33 m _ => m.files.map fun d => (d.tsMap m.maxSectors m.bytes).map fun _ => ()
  | i => i.listing.map fun _ => .ok ()

/-- what the loop of `list_files` reads for an entry, lines 182-190: the contents with `-c`, then the metadata with `-m` -/
def listReads (sums more : Bool) (data : Except Err Bytes) (extra : Except Err Unit) : Except Err Bytes :=
  match (if sums then data else .ok []) with
  | .error e => .error e
  | .ok d =>
    if more then
      match extra with
      | .error e => .error e
      | .ok _ => .ok d
    else .ok d

/-- the entries with what `list_files` reads for them -/
def Image.listed (sums more : Bool) (i : Image) : List (Bytes × Except Err Bytes) :=
  (i.listing.zip i.metaReads).map fun x => (x.1.1, listReads sums more x.1.2 x.2)

variable {σ : Type}

/-- loop of `add_files`, lines 153-157, with the host files it reads -/
def addHost (D : Driver σ) (o : Opts) (h : Host) : List Bytes → Bool → Proc σ Bool
  | [], changed => fun m => (.ok changed, m)
  | p :: ps, _ => fun m =>
    match h.read p with
    | .error e => (.error e, m)
    | .ok d =>
      match saveFile D o (baseName p) d m with
      | (.error e, m) => (.error e, m)
      | (.ok c, m) => addHost D o h ps c m

/-- the object files in order, lines 247-260.  `find_diskimage(".")` gives a `LocalFilesystem`, which has no `segments` (dummy.py:42-44). -/
def objFiles (W : World) (h : Host) : List Bytes → Except Err (List (Option (List ObjSeg)))
  | [] => .ok []
  | p :: ps =>
    match (if p = dotName then .error .attributeError else h.read p) with
    | .error e => .error e
    | .ok d =>
      match objRead W.libs d with
      | .error e => .error e
      | .ok s =>
        match objFiles W h ps with
        | .error e => .error e
        | .ok l => .ok (s :: l)

/-- host files by their name as text -/
def Host.readText (h : Host) (n : List Char) : Except Err Bytes :=
  if n.all (fun c => c.toNat < 256) then h.read (n.map fun c => UInt8.ofNat c.toNat) else .error .ioError

/-- The segments as the executable formats take them.  Negative addresses are left out: here they are an error. -/
def toSegs : List (Int × Bytes) → Except Err (List Seg)
  | [] => .ok []
  | (o, d) :: l =>
    if o < 0 then .error .valueError
    else
      match toSegs l with
      | .error e => .error e
      | .ok l => .ok ({ origin := o.toNat, data := d } :: l)

/-- `assemble_segments`, lines 202-274: data files before object files -/
def AsmArgs.build (W : World) (h : Host) (a : AsmArgs) : Except Err (List Seg × Option Nat) :=
  match dataLoop h.readText (a.data.headD []) with
  | .error e => .error e
  | .ok _ =>
    match objFiles W h (a.objs.headD []) with
    | .error e => .error e
    | .ok objs =>
      match assembleSegments h.readText (a.data.headD []) objs a.run with
      | .error e => .error e
      | .ok (segs, run) =>
        match toSegs segs with
        | .error e => .error e
        | .ok segs =>
          match run with
          | none => .ok (segs, none)
          | some r => if r < 0 then .error .valueError else .ok (segs, some r.toNat)

/-- `create_executable_file_image`, diskimages.py:311-317 -/
def makeExe (dflt : Option ExeKind) (output : Bytes) (segs : List Seg) (run : Option Nat) : Except Err Bytes :=
  match exeKind output, dflt with
  | none, none => .error .attributeError
  | k, d => createExecutable (k.getD (d.getD .xex)) output segs run

/-- keep the changed image in memory or write it to its file: `image.save()` -/
def saveTo (h : Host) (name : Bytes) : Except Err Bool × Image → Except CErr Unit × Host
  | (.error e, _) => (.error (.py e), h)
  | (.ok false, _) => (.ok (), h)
  | (.ok true, i) => (.ok (), h.write name i.bytes)

/-- result of a command that writes nothing -/
def shown (h : Host) (r : Except Err Unit) : Except CErr Unit × Host :=
  match r with
  | .ok _ => (.ok (), h)
  | .error e => (.error (.py e), h)

/-- lines 614-637: the command on an opened image -/
def Command.onImage (W : World) (dry : Bool) (name : Bytes) (i : Image) (h : Host) : Command → Except CErr Unit × Host
  | .list sums more names => shown h (crcLoop names (i.listed sums more))
  | .crc names => shown h (crcLoop names i.listing)
  | .segments => (.ok (), h)
  | .vtoc clear =>
    match i.vtoc with
    | .error e => (.error (.py e), h)
    | .ok _ =>
      if clear then saveTo h name (Cmd.shred.exec (imageDriver W.libs 'B') { dryRun := dry } i) else (.ok (), h)
  | .extract x names =>
    if !i.isDisk && !x.all && !names.isEmpty then (.error (.py .attributeError), h)
    else
      match extractFiles { x with dryRun := dry } i.listing names h with
      | (.error e, h) => (.error (.py e), h)
      | (.ok _, h) => (.ok (), h)
  | .add force filetype paths =>
    if !i.isDisk && filetype.isEmpty then (.error (.py .attributeError), h)
    else saveTo h name (addHost (imageDriver W.libs (filetypeChar filetype)) { force := force, dryRun := dry } h paths false i)
  | .delete force names => saveTo h name (removeLoop (imageDriver W.libs 'B') { force := force, dryRun := dry } names false i)
  | .assemble force a output =>
    match a.build W h with
    | .error e => (.error (.py e), h)
    | .ok (segs, run) =>
      match i.exeDefault with
      | .error e => (.error (.py e), h)
      | .ok dflt =>
        match makeExe dflt output segs run with
        | .error e => (.error (.py e), h)
        | .ok x => saveTo h name (saveFile (imageDriver W.libs 'B') { force := force, dryRun := dry } output x i)
  | .create .. | .boot .. => (.ok (), h) -- handled before an image is opened

/-- `LocalFilesystemImage` as `save_file` uses it, dummy.py:14-39 -/
def localSave (o : Opts) (h : Host) (n d : Bytes) : Host :=
  if (h.files.get n).isSome && !o.force then h
  else if o.dryRun then h
  else h.write n d

/-- loop of `add_files` with the image "." -/
def localAdd (o : Opts) : List Bytes → Proc Host Unit
  | [] => fun h => (.ok (), h)
  | p :: ps => fun h =>
    match h.read p with
    | .error e => (.error e, h)
    | .ok d => localAdd o ps (localSave o h (baseName p) d)

/-- The command on the image ".": `LocalFilesystem`, dummy.py.  It has no `segments`, its image has no `files`, `header` and
`default_filetype`; `delete_file` and `save` do nothing; `find_dirent` of an existing file gives `True`, which has no
`filename`. -/
def Command.onLocal (W : World) (dry : Bool) (h : Host) : Command → Except CErr Unit × Host
  | .list .. | .crc _ | .segments | .vtoc _ => (.error (.py .attributeError), h)
  | .extract x names =>
    if x.all || names.any (fun n => (h.files.get n).isSome) then (.error (.py .attributeError), h) else (.ok (), h)
  | .add force filetype paths =>
    if filetype.isEmpty then (.error (.py .attributeError), h)
    else
      match localAdd { force := force, dryRun := dry } paths h with
      | (.error e, h) => (.error (.py e), h)
      | (.ok _, h) => (.ok (), h)
  | .delete .. => (.ok (), h)
  | .assemble force a output =>
    match a.build W h with
    | .error e => (.error (.py e), h)
    | .ok (segs, run) =>
      match makeExe none output segs run with
      | .error e => (.error (.py e), h)
      | .ok x => (.ok (), localSave { force := force, dryRun := dry } h output x)
  | .create .. | .boot .. => (.ok (), h) -- handled before an image is opened

/-- `partial in name` -/
def hasInfix (p : Bytes) : Bytes → Bool
  | [] => p.isEmpty
  | a :: s => p.isPrefixOf (a :: s) || hasInfix p s

/-- `get_template_images`, lines 328-352 -/
def World.matching (W : World) (text : Bytes) : List (Bytes × Bytes) := W.templates.filter fun t => hasInfix text t.1

/-- `create_image`, lines 386-406: no template or several ones are reported and nothing is done.  The new file is opened again
after it has been written. -/
def createImage (W : World) (dry force : Bool) (template name : Bytes) (h : Host) : Except CErr Unit × Host :=
  match W.matching template with
  | [t] =>
    if dry then (.ok (), h)
    else if (h.files.get name).isSome && !force then (.ok (), h)
    else if name = dotName then (.error (.py .ioError), h)
    else
      match detect W.libs t.2 with
      | .error e => (.error e, h.write name t.2)
      | .ok _ => (.ok (), h.write name t.2)
  | _ => (.ok (), h)

/-- `parsers_for_filename`, parsers.py:296-314, with the `create_boot_image` of the class -/
def bootMaker (name : Bytes) : Option (List Seg → Option Nat → Except Err Bytes) :=
  if endsWith [0x2e, 0x61, 0x74, 0x72] name then some createBootImage -- ".atr"
  else if endsWith [0x2e, 0x64, 0x73, 0x6b] name then some createDelivery -- ".dsk"
  else none

/-- `boot_image`, lines 285-297: neither `options.dry_run` nor `options.force` is looked at -/
def bootImage (W : World) (a : AsmArgs) (name : Bytes) (h : Host) : Except CErr Unit × Host :=
  match bootMaker name with
  | none => (.ok (), h)
  | some make =>
    match a.build W h with
    | .error e => (.error (.py e), h)
    | .ok ([], _) => (.ok (), h)
    | .ok (s :: segs, run) =>
      match make (s :: segs) run with
      | .error e => (.error (.py e), h)
      | .ok b => (.ok (), h.write name b)

/-- the exceptions of `find_diskimage` that are reported and not raised, line 611 -/
def CErr.reported : CErr → Bool
  | .py .unsupportedContainer | .py .unsupportedDiskImage | .py .ioError | .ext .os => true
  | _ => false

/-- `run`, lines 601-637: one run of the program -/
def Command.main (W : World) (dry : Bool) (name : Bytes) (c : Command) (h : Host) : Except CErr Unit × Host :=
  match c with
  | .create force template => createImage W dry force template name h
  | .boot _ a => bootImage W a name h
  | c =>
    if name = dotName then c.onLocal W dry h
    else
      match h.files.get name with
      | none => (.ok (), h)
      | some b =>
        match detect W.libs b with
        | .error e => if e.reported then (.ok (), h) else (.error e, h)
        | .ok (i, _) => c.onImage W dry name i h

end Atr
