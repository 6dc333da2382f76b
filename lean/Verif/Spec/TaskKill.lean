/-
Specification: runs of `ultask` that may be killed.
-/
import Verif.Model.TaskKill
import Verif.Spec.TaskRun
namespace Ulp.TaskRun
open Ulp.Linux
open Ulp.Ultask

/-- The run, killed in its `i`-th action: the process that is left, and the requests made. -/
def Job.killed (k : Kern (Proc State)) (arch : Arch) (p : Proc State) (j : Job) (i n : Nat) :
    Option (Proc State × List Req) :=
  (Vma.readTaskVmas (Vma.initVmas j.info) false j.ls).bind fun vs => TaskRun.killed k arch j.e j.c vs j.out p j.opts i n

/-- The run as far as it goes: to its end, or until it is killed. -/
def Job.leaves (k : Kern (Proc State)) (arch : Arch) (p : Proc State) (j : Job) : Option (Nat × Nat) → Option (Proc State)
  | none => (j.run k arch p).map fun d => d.proc
  | some (i, n) => (j.killed k arch p i n).map fun x => x.1

/-- Runs one after the other, each of them killed somewhere or not. -/
def tries (k : Kern (Proc State)) (arch : Arch) : Proc State → List (Job × Option (Nat × Nat)) → Option (Proc State)
  | p, [] => some p
  | p, (j, m) :: js => (j.leaves k arch p m).bind fun p => tries k arch p js

/-- The run that does only the first `i` of the actions of the command line: the process. -/
def Job.upTo (k : Kern (Proc State)) (arch : Arch) (p : Proc State) (j : Job) (i : Nat) : Option (Proc State) :=
  (Vma.readTaskVmas (Vma.initVmas j.info) false j.ls).bind fun vs =>
    (doActs k arch j.c ⟨⟨p, []⟩, vs, j.out, 0⟩ ((asks j.e j.opts).take i)).map fun s => s.run.w

end Ulp.TaskRun
