/-
Specification: what typed command lines mean, by the help texts (`Verif.Spec.Getopt`).
-/
import Verif.Model.Shell
import Verif.Spec.Getopt
import Verif.Spec.System
namespace Ulp.Shell
open Sys (Ev)
open Getopt (Prog Word)
open Cli (Opt AOpt lastCmd)

/-- The command line is written as the help text says, and these are the options that are
written. -/
inductive Means : Line → Ev → Prop
  | ulpatch {posix ws os} (c : Sys.Circ) : Prog.ulpatch.Spelled posix ws os → Means (.ulpatch posix ws c) (.ulpatch (os.map plain) c)
  | ulftrace {posix ws os} (c : Sys.Circ) : Prog.ulftrace.Spelled posix ws os → Means (.ulftrace posix ws c) (.ulftrace (os.map plain) c)
  | begins (p : BitVec 32) (w : Patch.World) : Means (.begins p w) (.begins p w)
  | ends (p : BitVec 32) : Means (.ends p) (.ends p)

/-- The same for one after the other. -/
inductive AllMean : List Line → List Ev → Prop
  | nil : AllMean [] []
  | cons {l v ls vs} : Means l v → AllMean ls vs → AllMean (l :: ls) (v :: vs)

/-- The words write options of `ulpatch`, none of which ends the program; the last `-p` names `p`, and `x` is
the last command. -/
def Orders (posix : Bool) (ws : List Word) (os : List AOpt) (p : BitVec 32) (x : Opt) : Prop :=
  Prog.ulpatch.Spelled posix ws os ∧ (∀ o ∈ os.map plain, o.ofPatch = true) ∧ Sys.pidOf (os.map plain) = some p ∧
    lastCmd (os.map plain) = some x

end Ulp.Shell
