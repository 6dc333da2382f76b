/-
Specification: what `/proc` shows of the threads and descriptors of a process, and the lines
that `ultask` should print.
-/
import Verif.Spec.ProcMaps
namespace Ulp.TaskListSpec
open Ulp.MapKind (text)
open Ulp.ProcMaps (decimal)

/-- `names` are the names in a directory that has one entry for each of the numbers, in this
order, and the entries `.` and `..` anywhere between them. -/
inductive Numbered : List Nat → List (List Byte) → Prop where
  | nil : Numbered [] []
  | dot {l ns} : Numbered l ns → Numbered l (text "." :: ns)
  | dots {l ns} : Numbered l ns → Numbered l (text ".." :: ns)
  | entry {l ns} (n : Nat) : Numbered l ns → Numbered (n :: l) (decimal n :: ns)

/-- The line for a thread. -/
def threadLine (pid tid : Nat) : List Byte :=
  text "pid " ++ decimal pid ++ text ", tid " ++ decimal tid ++ text "\n"

/-- The line for a descriptor. -/
def fdLine (fd : Nat) (target : List Byte) : List Byte :=
  text "fd " ++ decimal fd ++ text " -> " ++ target ++ text "\n"

end Ulp.TaskListSpec
