/-
Command lines as they are typed, one after the other, in a system with any number of processes:
from the words (`Verif.Model.Getopt`) to the memory of the processes (`Verif.Model.System`).
-/
import Verif.Model.System
import Verif.Model.Getopt
namespace Ulp.Shell
open LoadBytes (Machine)
open Sys (System Circ Out)
open Cli (Opt AOpt)
open Getopt (Case Word Prog)

/-- The option of `Verif.Model.Cli`: what `-v`, `--log-level`, `--log-debug` and `--log-error` set is
not looked at by the work on the process, and `--info` ends the program with 0
(src/args-common.c:72-95). -/
def plain : AOpt → Opt
  | .verbose _ => .other
  | .level _ => .other
  | .info => .stop 0
  | .own o => o

/-- The options that the loop over `getopt_long` sees (src/ulpatch.c:96-123,
src/ulftrace.c:89-111); `none` is a null pointer that is read.  Simplification: a null pointer
behind an option that ends the program is counted too; `C132_known` says that there are none. -/
def optsOf : List Case → Option (List Opt)
  | [] => some []
  | .null :: _ => none
  | .opt o :: ks => (optsOf ks).map fun os => plain o :: os

/-- What happens in the system: a command line is typed (`posix`: `POSIXLY_CORRECT` is in the
environment; the words behind the name of the tool; what the run meets), a process begins, a process
ends. -/
inductive Line where
  | ulpatch (posix : Bool) (ws : List Word) (c : Circ)
  | ulftrace (posix : Bool) (ws : List Word) (c : Circ)
  | begins (p : BitVec 32) (w : Patch.World)
  | ends (p : BitVec 32)

/-- One of them (src/ulpatch.c:84-242, src/ulftrace.c:74-206). -/
def type (M : Machine) (s : System) : Line → Option (System × Out)
  | .ulpatch posix ws c =>
    match optsOf (Prog.ulpatch.cases posix ws) with
    | none => some (s, .crashed)
    | some os => Sys.ulpatch M s os c
  | .ulftrace posix ws c =>
    match optsOf (Prog.ulftrace.cases posix ws) with
    | none => some (s, .crashed)
    | some os => Sys.ulftrace M s os c
  | .begins p w => Sys.step M s (.begins p w)
  | .ends p => Sys.step M s (.ends p)

/-- One after the other; the system at the end and how each ended. -/
def types (M : Machine) (s : System) : List Line → Option (System × List Out)
  | [] => some (s, [])
  | l :: ls =>
    match type M s l with
    | none => none
    | some (s', o) =>
      match types M s' ls with
      | none => none
      | some (s'', os) => some (s'', o :: os)

end Ulp.Shell
