import Verif.Model.AtariDos
import Verif.Lemmas.Basic
import Verif.Props.Geometry
import Verif.Lemmas.Alloc
import Verif.Lemmas.AtariIO
import Verif.Lemmas.AtariDir
import Verif.Lemmas.AtariRead
import Verif.Lemmas.AtariInv
import Verif.Lemmas.AtariWrite
import Verif.Lemmas.AtariPreserve
import Verif.Lemmas.AtariDelete
import Verif.Lemmas.AtariOps
import Verif.Lemmas.AtariBlank
import Verif.Lemmas.AtariMounted
import Verif.Props.AtariFiles
import Verif.Lemmas.AtariHang
import Verif.Lemmas.AtariOne
import Verif.Props.AtariRead
import Verif.Lemmas.AtariMore
import Verif.Lemmas.AtariLeft
import Verif.Spec.AtariLeft
import Verif.Props.AtariLeft
import Verif.Props.AtariLimits
import Verif.Props.AtariDirent
import Verif.Lemmas.AtariFull
import Verif.Lemmas.AtariWide
import Verif.Props.AtariFull
import Verif.Model.Cli
import Verif.Spec.Cli
import Verif.Lemmas.Cli
import Verif.Props.Cli
import Verif.Model.Executables
import Verif.Spec.Xex
import Verif.Lemmas.Xex
import Verif.Props.Xex
import Verif.Props.Bsave
import Verif.Props.KBoot
import Verif.Model.Segments
import Verif.Spec.Segments
import Verif.Lemmas.Segments
import Verif.Props.Segments
import Verif.Props.Interleave
import Verif.Model.Style
import Verif.Lemmas.Style
import Verif.Lemmas.Comments
import Verif.Props.Style
import Verif.Props.Comments
import Verif.Model.Cart
import Verif.Props.Cart
import Verif.Model.Parsers
import Verif.Props.Parsers
import Verif.Model.Text
import Verif.Props.Text
import Verif.Model.Dos33
import Verif.Spec.Dos33
import Verif.Lemmas.Dos33IO
import Verif.Lemmas.Dos33Cat
import Verif.Lemmas.Dos33Inv
import Verif.Lemmas.Dos33Commit
import Verif.Lemmas.Dos33Write
import Verif.Lemmas.Dos33Preserve
import Verif.Lemmas.Dos33Delete
import Verif.Lemmas.Dos33Mounted
import Verif.Lemmas.Dos33Ops
import Verif.Lemmas.Dos33Blank
import Verif.Props.Dos33Files
import Verif.Lemmas.CliGen
import Verif.Props.Dos33Cli
import Verif.Props.Dos33Dirent
import Verif.Lemmas.Walk
import Verif.Props.Dos33Hang
import Verif.Model.Delivery
import Verif.Spec.Delivery
import Verif.Lemmas.Delivery
import Verif.Props.Delivery
import Verif.Model.Sparta
import Verif.Spec.Sparta
import Verif.Lemmas.Sparta
import Verif.Props.Sparta
import Verif.Spec.AtariOpen
import Verif.Props.AtariOpen
import Verif.Model.Extract
import Verif.Props.Extract
import Verif.Model.Assemble
import Verif.Props.Assemble
import Verif.Props.CartOpen
import Verif.Props.AtariBoot
import Verif.Spec.Detect
import Verif.Model.Detect
import Verif.Lemmas.Detect
import Verif.Lemmas.DetectSegs
import Verif.Lemmas.DetectBoot
import Verif.Props.Detect
import Verif.Props.DetectAtari
import Verif.Props.DetectShown
import Verif.Props.DetectCli
import Verif.Lemmas.DetectOther
import Verif.Props.DetectOther
import Verif.Props.Dos33Frame
import Verif.Props.DetectDos33
import Verif.Spec.Dos33Read
import Verif.Props.Dos33Read
import Verif.Props.Dos33Crash
import Verif.Spec.Dos33Open
import Verif.Props.Dos33Open
import Verif.Spec.SpartaDir
import Verif.Props.SpartaDir
import Verif.Model.Images
import Verif.Model.ObjFiles
import Verif.Spec.SpartaShred
import Verif.Spec.Images
import Verif.Lemmas.SpartaShred
import Verif.Lemmas.Opened
import Verif.Props.SpartaShred
import Verif.Props.Images
import Verif.Model.Args
import Verif.Props.Args
import Verif.Model.Program
import Verif.Spec.Program
import Verif.Props.Program
import Verif.Props.Create
import Verif.Props.ProgramFiles
import Verif.Props.CopyDisk
import Verif.Props.ObjFiles
import Verif.Props.KBootRun
import Verif.Props.DeliveryRun
import Verif.Props.DeliveryPages
import Verif.Props.DeliveryScreen
import Verif.Model.Display
import Verif.Spec.Display
import Verif.Spec.Crc
import Verif.Lemmas.Display
import Verif.Props.Display
import Verif.Props.Crc
import Verif.Model.Labels
import Verif.Spec.Labels
import Verif.Props.Labels
import Verif.Model.Resize
import Verif.Props.Resize
import Verif.Spec.SpartaShown
import Verif.Props.SpartaShown
import Verif.Spec.Outcome
import Verif.Props.Outcome
import Verif.Props.Dos33Crowded
import Verif.Props.Dos33Compact
import Verif.Props.Dos33Locked
import Verif.Spec.Magic
import Verif.Props.Magic
import Verif.Spec.Antic
import Verif.Props.LoadScreen
import Verif.Spec.Boot
import Verif.Props.Boot
import Verif.Props.Exact
import Verif.Props.Dos33Text
import Verif.Props.Refused
import Verif.Props.Session
import Verif.Model.SegLines
import Verif.Spec.SegLines
import Verif.Props.SegLines
import Verif.Props.SegLinesMore
import Verif.Model.Addresses
import Verif.Props.Addresses
import Verif.Model.UserData
import Verif.Model.Savers
import Verif.Props.UserData
import Verif.Props.Savers
import Verif.Props.Plugin
import Verif.Props.SegLinesSparta
import Verif.Model.VtocText
import Verif.Model.FirstLine
import Verif.Spec.VtocText
import Verif.Spec.FirstLine
import Verif.Props.VtocText
import Verif.Props.FirstLine
import Verif.Spec.Metadata
import Verif.Props.Metadata
import Verif.Props.Dos33WriteAny
import Verif.Props.Dos33Holes
import Verif.Spec.Atari25
import Verif.Props.AtariHigh
import Verif.Spec.MyDos
import Verif.Props.MyDos
import Verif.Spec.AtariNames
import Verif.Spec.Dos33Lists
import Verif.Spec.Dos33Names
import Verif.Props.AtariNames
import Verif.Props.Dos33Lists
import Verif.Props.Dos33Names
import Verif.Spec.BRun
import Verif.Props.BRun
import Verif.Spec.BLoad
import Verif.Props.BLoad
import Verif.Spec.System
import Verif.Props.System
import Verif.Spec.Autobrun
import Verif.Props.Autobrun
import Verif.Props.Autorun
import Verif.Model.CartSizes
import Verif.Props.CartSizes
import Verif.Model.Verbose
import Verif.Spec.Verbose
import Verif.Props.Verbose
import Verif.Props.Verbose33
import Verif.Model.AsmLines
import Verif.Spec.AsmLines
import Verif.Props.AsmLines
import Verif.Props.Dos33Pairs
import Verif.Props.VerboseSparta
import Verif.Props.VerboseUnread
import Verif.Props.Dos33PairsRead
import Verif.Props.Dos33PairsWrite
import Verif.Props.Dos33PairsDelete
