import Verif.Model.Executables
import Verif.Model.Text
import Verif.Model.Cli
/-!
# The `assemble` command: `/repo/atrcopy/__init__.py:202-283`, `executables.py:103-112`, `diskimages.py:311-317`

Source files (the `pyatasm` assembler) are left out.  Host files are a function from names to contents; `OSError` is
`Err.ioError`.
-/
namespace Atr

/-- `s.rsplit(c, 1)`: before and after the last `c`; `none` if there is none -/
def rsplit1 (c : Char) : List Char → Option (List Char × List Char)
  | [] => none
  | a :: s =>
    match rsplit1 c s with
    | some (x, y) => some (a :: x, y)
    | none => if a = c then some ([], s) else none

/-- `s.split(c, 1)`: before and after the first `c` -/
def split1 (c : Char) : List Char → Option (List Char × List Char)
  | [] => none
  | a :: s => if a = c then some ([], s) else (split1 c s).map fun p => (a :: p.1, p.2)

/-- index of a Python slice bound in a sequence of `n` items: negative counts from the end, clipped -/
def sliceBound (n : Nat) (i : Int) : Nat := if i < 0 then (i + n).toNat else min i.toNat n

/-- `data[start:stop]` -/
def pySlice (d : Bytes) (start : Int) (stop : Option Int) : Bytes :=
  slice d (sliceBound d.length start) (match stop with | none => d.length | some e => sliceBound d.length e)

/-- lines 230-241: the text behind `[` as start and stop.  Errors of `int` are swallowed; without a colon the whole file is
used. -/
def subsetOf (text : List Char) : Int × Option Int :=
  match split1 ':' text with
  | none => (0, none)
  | some (a, e) =>
    let start := match pyInt 10 a with | .ok v => v | .error _ => 0
    let e := if e.getLast? = some ']' then e.dropLast else e
    (start, match pyInt 10 e with | .ok v => some v | .error _ => none)

/-- one of `data_files`, lines 220-246: load address and bytes -/
def dataSegment (files : List Char → Except Err Bytes) (text : List Char) : Except Err (Int × Bytes) :=
  match rsplit1 '@' text with
  | none => .error .atrError
  | some (name, addr) =>
    match textToInt addr false with
    | .error e => .error e
    | .ok first =>
      let r := if name.contains '[' && name.contains ']' then
          match rsplit1 '[' name with
          | some (n, t) => (n, subsetOf t)
          | none => (name, (0, none)) -- not reachable
        else (name, (0, none))
      match files r.1 with
      | .error e => .error e
      | .ok d => .ok (first, pySlice d r.2.1 r.2.2)

/-- a segment of a parsed object file: `RunAddressSegment`, or any other with its origin -/
inductive ObjSeg
  | run (addr : Nat)
  | seg (origin : Nat) (data : Bytes)
deriving DecidableEq

/-- segments of `AtariDosFile` behind the container segment (origin 0), as lines 252-260 see them.  `run_address` reads the
first two bytes (ataridos.py:265-266); one byte raises `ValueError` in `view`. -/
def XSeg.asObj (s : XSeg) : Except Err ObjSeg :=
  if s.kind = .run then
    match s.data with
    | a :: c :: _ => .ok (.run (le16 a c))
    | _ => .error .valueError
  else .ok (.seg s.origin s.data)

/-- `run_addr` while the object files are read: text from the command line or a number from a file -/
inductive RunArg
  | text (t : List Char)
  | num (n : Nat)
deriving DecidableEq

/-- truth value of `run_addr` -/
def RunArg.isSet : RunArg → Bool
  | .text t => !t.isEmpty
  | .num n => n != 0

/-- loop over the segments of one object file, lines 252-260 -/
def objLoop : List ObjSeg → List (Int × Bytes) → RunArg → List (Int × Bytes) × RunArg
  | [], segs, run => (segs, run)
  | .run a :: l, segs, run => objLoop l segs (if run.isSet then run else .num a)
  | .seg o d :: l, segs, run => objLoop l (if 0 < o then segs ++ [((o : Int), d)] else segs) run

/-- lines 264-272: the final run address.  Text that is no number gives `None`. -/
def RunArg.value : RunArg → Option Int
  | .num n => some n
  | .text [] => none
  | .text t =>
    match textToInt t false with
    | .ok v => some v
    | .error _ => match pyInt 10 t with
      | .ok v => some v
      | .error _ => none

/-- loop over the data files -/
def dataLoop (files : List Char → Except Err Bytes) : List (List Char) → Except Err (List (Int × Bytes))
  | [] => .ok []
  | t :: ts =>
    match dataSegment files t with
    | .error e => .error e
    | .ok s =>
      match dataLoop files ts with
      | .error e => .error e
      | .ok l => .ok (s :: l)

/-- `assemble_segments` without source files, lines 202-274.  An object file is given by its segments or by `none` when
`find_diskimage` raised an `AtrError` (skipped, lines 249-250). -/
def assembleSegments (files : List Char → Except Err Bytes) (data : List (List Char)) (objs : List (Option (List ObjSeg)))
    (run : List Char) : Except Err (List (Int × Bytes) × Option Int) :=
  match dataLoop files data with
  | .error e => .error e
  | .ok segs =>
    let r := objLoop (objs.flatMap fun o => o.getD []) segs (.text run)
    .ok (r.1, r.2.value)

/-- `str.lower` for ASCII, and `name.endswith(suffix)` -/
def endsWith (suffix name : Bytes) : Bool := (name.map fun c => if 65 ≤ c.toNat ∧ c.toNat ≤ 90 then c + 32 else c).reverse.take suffix.length == suffix.reverse

/-- executable formats -/
inductive ExeKind
  | xex | bsave
deriving DecidableEq

/-- suffix tests of `create_executable_file_data`, executables.py:104-112 -/
def exeKind (name : Bytes) : Option ExeKind :=
  if endsWith [0x78, 0x65, 0x78] name then some .xex -- "xex"
  else if endsWith [0x62, 0x69, 0x6e] name || endsWith [0x62, 0x73, 0x61, 0x76, 0x65] name then some .bsave -- "bin", "bsave"
  else none

/-- `create_executable_file_image`, diskimages.py:311-317: an unknown suffix takes the default format of the image -/
def createExecutable (default : ExeKind) (output : Bytes) (segs : List Seg) (run : Option Nat) : Except Err Bytes :=
  match (exeKind output).getD default with
  | .xex => getXex segs run
  | .bsave => getBsave segs run

variable {σ : Type}

/-- `assemble`, lines 276-283, as a whole run on the image file `b`: load the image, build the file, save it under
`output`.  The file type "XEX" or "B" is the same for DOS 3.3 (`text_to_type.get(filetype, 4)`) and unused for Atari DOS. -/
def runAssemble (D : Driver σ) (o : Opts) (default : ExeKind) (output : Bytes) (segs : List Seg) (run : Option Nat) (b : Bytes) :
    Except Err Unit × Bytes :=
  match D.load b with
  | .error e => (.error e, b)
  | .ok m =>
    match createExecutable default output segs run with
    | .error e => (.error e, b)
    | .ok x =>
      match saveFile D o output x m with
      | (.error e, _) => (.error e, b)
      | (.ok false, _) => (.ok (), b)
      | (.ok true, m) => (.ok (), D.bytes m)

end Atr
