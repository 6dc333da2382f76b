/-
Specification: what typed command lines of `ultask` ask for, by the help text (`Verif.Spec.Getopt`).
-/
import Verif.Model.TaskShell
import Verif.Spec.Getopt
import Verif.Spec.TaskDo
namespace Ulp.TaskShell
open Ultask (Kern)
open TaskRun (Proc Done Job)
open Linux (State)
open Getopt (Word Prog)
open Cli (Opt AOpt Kind)
open Shell (plain)

/-- A command line of `ultask`, and what the run meets (see `TaskRun.Job`). -/
structure Typed where
  posix : Bool
  ws : List Word
  e : Cli.Env
  c : TaskRun.Circ
  ls : List (Nat × Vma.Line)
  info : Nat → Vma.Vma
  out : Option (List Byte)

/-- The run on a process. -/
def Typed.run (k : Kern (Proc State)) (arch : Arch) (p : Proc State) (t : Typed) : Option (Done State) :=
  (Vma.readTaskVmas (Vma.initVmas t.info) false t.ls).bind fun vs => ultask k arch t.posix t.ws t.e t.c vs t.out p

/-- The same run with these options. -/
def Typed.job (t : Typed) (opts : List Opt) : Job := ⟨t.e, t.c, t.ls, t.info, t.out, opts⟩

/-- The words write `-p P` and the options `l`, in this order but for the `-p`, and besides them only
`-v`, `--verbose` and the options for logging. -/
def Typed.Says (t : Typed) (P : Word) (l : List Opt) : Prop :=
  ∃ os A B, Prog.ultask.Spelled t.posix t.ws os ∧ l = A ++ B ∧ (os.map plain).filter (· ≠ .other) = A ++ .pid P :: B

/-- There is an option of this kind among the words; anything may be behind the letter `v`. -/
def Typed.Asks (t : Typed) (x : Kind) : Prop :=
  ∃ os, Prog.ultask.Loose t.posix t.ws os ∧ ∃ o ∈ os.map plain, o.change = some x

end Ulp.TaskShell
