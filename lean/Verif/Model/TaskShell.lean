/-
`ultask` as it is typed: from the words to the process.
-/
import Verif.Model.Shell
import Verif.Model.TaskRun
namespace Ulp.TaskShell
open Ultask (Kern)
open TaskRun (Proc Circ Done)
open Getopt (Word Prog)

/-- `main` of `ultask` with these words behind the name of the tool (src/ultask.c:256-595, 855-935);
`posix`: `POSIXLY_CORRECT` is in the environment.  `none`: undefined behaviour. -/
def ultask {W : Type} (k : Kern (Proc W)) (arch : Arch) (posix : Bool) (ws : List Word) (e : Cli.Env) (c : Circ) (vs : Vma.Vmas)
    (out : Option (List Byte)) (p : Proc W) : Option (Done W) :=
  match Shell.optsOf (Prog.ultask.cases posix ws) with
  | none => none
  | some os => TaskRun.ultask k arch e c vs out p os

end Ulp.TaskShell
