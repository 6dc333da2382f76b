/-
`ultask` is killed somewhere in a run
(src/ultask.c:855-935).

A run is cut between two requests, or within the `pwrite` of `--jmp`.  Within a request the
process is in a remote system call: see `Concurrent` and `C115_in_call`.
-/
import Verif.Model.TaskRun
namespace Ulp.TaskRun
open Ulp.Ultask
open Ulp.Vma (Vmas)
open Ulp.Cli (Act Opt acts taskParse)

/-- The process after these requests. -/
def after {W : Type} (k : Kern (Proc W)) (p : Proc W) (qs : List Req) : Proc W :=
  qs.foldl (fun p q => (k.ask p q).1) p

/-- One of the things that `ultask` does (src/ultask.c:882-930), cut after `n` of its requests, or
after `n` bytes of the jump (src/ultask.c:815-816): the process, and the requests made. -/
def cut {W : Type} (k : Kern (Proc W)) (arch : Arch) (c : Circ) (s : Run' W) (a : Act) (n : Nat) :
    Option (Proc W × List Req) :=
  match a with
  | .jmp src dst =>
    (runJmp arch s.vs s.run.w.mem src dst c.rd (some n)).map fun x => (⟨s.run.w.w, x.1⟩, [])
  | a =>
    (act k arch c s a).map fun s' =>
      let qs := (s'.run.log.drop s.run.log.length).take n
      (after k s.run.w qs, qs)

/-- The first `i` things are done, and the next is cut (src/ultask.c:882-930). -/
def cutActs {W : Type} (k : Kern (Proc W)) (arch : Arch) (c : Circ) (s : Run' W) (as : List Act) (i n : Nat) :
    Option (Proc W × List Req) :=
  (doActs k arch c s (as.take i)).bind fun s =>
    match as.drop i with
    | [] => some (s.run.w, s.run.log)
    | a :: _ => (cut k arch c s a n).map fun x => (x.1, s.run.log ++ x.2)

/-- `ultask` (src/ultask.c:855-935), killed: the process that is left, and the requests made.  The
kernel detaches a tracer that ends from the process (ptrace(2)). -/
def killed {W : Type} (k : Kern (Proc W)) (arch : Arch) (e : Cli.Env) (c : Circ) (vs : Vmas)
    (out : Option (List Byte)) (p : Proc W) (opts : List Opt) (i n : Nat) : Option (Proc W × List Req) :=
  match taskParse e opts with
  | .error _ => some (p, [])
  | .ok g =>
    if c.starts = false then some (p, [])
    else if c.opens = false then some (p, [])
    else
      (cutActs k arch c ⟨⟨p, []⟩, vs, out, 0⟩ (acts g) i n).map fun x =>
        (if x.2 = [] then x.1 else (k.ask x.1 .detach).1, x.2)

end Ulp.TaskRun
