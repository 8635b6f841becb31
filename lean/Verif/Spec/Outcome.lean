import Verif.Spec.Program
/-! # Reasons for which a run of the program may fail on a sound disk -/
namespace Atr

/-- Why a command fails: a file given to `add` is missing, there is no room for what is added, the arguments of `assemble` are wrong, or no
executable of the kind `k` (or the kind the name says) can be made of the segments. -/
inductive Excuse (W : World) (h : Host) (k : ExeKind) : Command → Err → Prop
  | missing {f ft paths q e} : q ∈ paths → h.files.get q = none → Excuse W h k (.add f ft paths) e
  | addFull {f ft paths} : Excuse W h k (.add f ft paths) .notEnoughSpace
  | asmFull {f a out} : Excuse W h k (.assemble f a out) .notEnoughSpace
  | args {f a out e} : a.build W h = .error e → Excuse W h k (.assemble f a out) e
  | make {f a out segs run e} : a.build W h = .ok (segs, run) → createExecutable ((exeKind out).getD k) out segs run = .error e →
      Excuse W h k (.assemble f a out) e

/-- the exceptions that end in a message: `errors.UnsupportedContainer`, `errors.UnsupportedDiskImage` and those of the operating system -/
def toldErrors : List CErr := [.py .unsupportedContainer, .py .unsupportedDiskImage, .py .ioError, .ext .os]

end Atr
