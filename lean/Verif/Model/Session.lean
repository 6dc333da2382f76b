/-
All four tools, as they are typed, on the processes of one system.
-/
import Verif.Model.TaskShell
import Verif.Model.TaskKill
import Verif.Model.InfoShell
import Verif.Spec.AddrSpace
namespace Ulp.Session
open Ultask (Kern)
open TaskRun (Proc)
open Linux (State)
open LoadBytes (Machine)
open Sys (System Out setProc)
open Getopt (Word Prog)

/-- What happens: something of `Verif.Model.Shell` (`ulpatch` or `ulftrace` is typed, a process begins
or ends), `ultask` is typed, `ulpinfo` is typed.  `posix`: `POSIXLY_CORRECT` is in the environment.
For `ultask`: the kernel `k`, what it keeps of the process at that time, the answers to the checks, what
the run meets, the lines of `/proc/PID/maps`, the output file, and where the run is killed, if it is
(see `Verif.Model.TaskKill`). -/
inductive Line where
  | shell (l : Shell.Line)
  | ultask (posix : Bool) (ws : List Word) (k : Kern (Proc State)) (st : State) (e : Cli.Env) (c : TaskRun.Circ)
      (ls : List (Nat × Vma.Line)) (info : Nat → Vma.Vma) (out : Option (List Byte)) (cut : Option (Nat × Nat))
  | ulpinfo (posix : Bool) (ws : List Word) (c : InfoShell.Circ)

/-- A run of `ultask` (src/ultask.c:855-935) that ends, or is killed: the process, and how the run
ended. -/
def run (k : Kern (Proc State)) (arch : Arch) (e : Cli.Env) (c : TaskRun.Circ) (vs : Vma.Vmas) (out : Option (List Byte))
    (p : Proc State) (os : List Cli.Opt) : Option (Nat × Nat) → Option (Proc State × Out)
  | none => (TaskRun.ultask k arch e c vs out p os).map fun d => (d.proc, .status d.status)
  | some (i, n) => (TaskRun.killed k arch e c vs out p os i n).map fun x => (x.1, .crashed)

/-- `main` of `ultask` (src/ultask.c:855-935) in the system: the process is the one that `-p` names.
`none`: undefined behaviour.  Simplifications: the patches that are mapped stay in the list, although
`--unmap` can take one (`C136_dangling`; the statements on sessions exclude it); the output file of `--dump` is none of the files
of the system; a missing process is seen behind the other checks of the command line
(src/ultask.c:492-495), all of which end the program without touching anything. -/
def ultask (s : System) (k : Kern (Proc State)) (st : State) (e : Cli.Env) (c : TaskRun.Circ) (ls : List (Nat × Vma.Line))
    (info : Nat → Vma.Vma) (out : Option (List Byte)) (cut : Option (Nat × Nat)) (os : List Cli.Opt) : Option (System × Out) :=
  match Cli.taskParse e os with
  | .error n => some (s, .status n)
  | .ok g =>
    match s.procs g.pid with
    | none => some (s, .status 1)
    | some w =>
      match Vma.readTaskVmas (Vma.initVmas info) false ls with
      | none => none
      | some vs =>
        match run k w.arch e c vs out ⟨st, w.mem⟩ os cut with
        | none => none
        | some (q, o) => some (setProc s g.pid { w with mem := q.mem }, o)

/-- One of them (src/ulpatch.c:84-242, src/ulftrace.c:74-206, src/ultask.c:855-935,
src/ulpinfo.c:59-222).  `none`: undefined behaviour of `ulpatch`, `ulftrace` or `ultask`; that of
`ulpinfo`, which writes to no process, is a crash of it. -/
def type (M : Machine) (s : System) : Line → Option (System × Out)
  | .shell l => Shell.type M s l
  | .ultask posix ws k st e c ls info out cut =>
    match Shell.optsOf (Prog.ultask.cases posix ws) with
    | none => some (s, .crashed)
    | some os => ultask s k st e c ls info out cut os
  | .ulpinfo posix ws c =>
    match InfoShell.ulpinfo s posix ws c with
    | (t, none) => some (t, .crashed)
    | (t, some (n, _)) => some (t, .status n)

/-- One after the other; the system at the end and how each ended. -/
def types (M : Machine) (s : System) : List Line → Option (System × List Out)
  | [] => some (s, [])
  | l :: ls =>
    match type M s l with
    | none => none
    | some (s', o) =>
      match types M s' ls with
      | none => none
      | some (s'', os) => some (s'', o :: os)

end Ulp.Session
