import Verif.Model.Py
/-!
# The arguments of the program: `run`, `/repo/atrcopy/__init__.py:442-456, 537-585`

What is done to `sys.argv[1:]` before it is handed to `argparse`.  `argparse` itself is not modelled.
-/
namespace Atr

/-- an argument -/
abbrev Arg := List Char

/-- `arg.startswith("-")` -/
def Arg.dash (a : Arg) : Bool := a.head? == some '-'

/-- lines 442-453: commands with their aliases -/
def commandAliases : List (String × List String) :=
  [("list", ["t", "ls", "dir", "catalog"]), ("crc", []), ("extract", ["x"]), ("add", ["a"]), ("create", ["c"]), ("boot", ["b"]),
   ("assemble", ["s", "asm"]), ("delete", ["rm", "del"]), ("vtoc", ["v"]), ("segments", [])]

/-- `reverse_aliases`, line 456: words that name a command, with that command -/
def reverseAliases : List (Arg × Arg) := commandAliases.flatMap fun x => (x.2 ++ [x.1]).map fun z => (z.toList, x.1.toList)

/-- `arg in reverse_aliases` -/
def isCommand (a : Arg) : Bool := (reverseAliases.lookup a).isSome

/-- variables of the loop, lines 543-558 -/
structure Scan where
  foundHelp : Int := -1
  firstNonDash : Int := 0
  nonDash : List Arg := []
deriving DecidableEq

/-- body of the loop (`num_non_dash` is always the length of `non_dash`) -/
def Scan.step (s : Scan) (i : Nat) (arg : Arg) : Scan :=
  if arg.dash then
    let s := if i = 0 then { s with firstNonDash := -1 } else s
    if arg = "-h".toList ∨ arg = "--help".toList then { s with foundHelp := i } else s
  else
    let s := { s with nonDash := s.nonDash ++ [arg] }
    if s.firstNonDash < 0 then { s with firstNonDash := i } else s

/-- the loop -/
def Scan.loop (s : Scan) (i : Nat) : List Arg → Scan
  | [] => s
  | a :: as => (s.step i a).loop (i + 1) as

/-- what is handed to `argparse` -/
inductive Prepared
  /-- no arguments: help is printed and the program ends with exit code 1 (line 586-588) -/
  | usage
  /-- `args` for help; there is no name of a disk image -/
  | help (args : List Arg)
  /-- the name of the disk image and `args` -/
  | run (image : Arg) (args : List Arg)
deriving DecidableEq

/-- lines 541-588.  `non_dash[1]` of a list with one item raises `IndexError` (line 568 only checks that the list is not empty). -/
def prepareArgs (args : List Arg) : Except Err Prepared :=
  if args = [] then .ok .usage
  else
    let s := Scan.loop {} 0 args
    if s.foundHelp ≥ 0 ∨ s.firstNonDash < 0 then
      if s.foundHelp = 0 ∨ s.firstNonDash < 0 then .ok (.help ["--help".toList])
      else
        match s.nonDash with
        | [] => .error .indexError
        | c :: rest =>
          if isCommand c then .ok (.help [c, "--help".toList])
          else
            match rest with
            | [] => .error .indexError
            | c :: _ => if isCommand c then .ok (.help [c, "--help".toList]) else .ok (.help ["--help".toList])
    else
      match args[s.firstNonDash.toNat]? with
      | none => .error .indexError
      | some image =>
        let rest := args.take s.firstNonDash.toNat ++ args.drop (s.firstNonDash.toNat + 1)
        .ok (.run image (if s.nonDash.length = 1 then rest ++ ["list".toList] else rest))

end Atr
