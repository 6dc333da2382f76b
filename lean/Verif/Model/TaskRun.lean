/-
A whole run of `ultask`: from the command line to the process, its memory and the output file
(src/ultask.c:855-935).

What is only printed is left out here: see `Listing`, `Symbols`, `Threads`, `Disasm`.
-/
import Verif.Model.Cli
import Verif.Model.Ultask
namespace Ulp.TaskRun
open Ulp.Ultask
open Ulp.Vma (Vmas Line readTaskVmas)
open Ulp.Cli (Act Opt acts taskParse)

/-- A process: what the kernel keeps of it, and its memory. -/
structure Proc (W : Type) where
  w : W
  mem : Mem

/-- What a run meets besides the process: the files; whether `ulpatch_init` and `open_task`
succeed (src/ultask.c:872-880); `/proc/PID/maps` when it is read again behind `mmap`, each line
with the pointer that `malloc` returns, `none` if it cannot be read (src/ultask.c:658); the bytes
that `pread` and `pwrite` move for the jump; the `[vdso]` mapping; what the dumps meet. -/
structure Circ where
  fs : Fs
  starts : Bool
  opens : Bool
  lines : Option (List (Nat × Line))
  rd : Option Nat
  wr : Option Nat
  vdso : Option (BitVec 64)
  dump : Act → DumpEnv

/-- The variables of a run: the process and the requests so far, the known mappings, the
contents of the output file, and `ret`. -/
structure Run' (W : Type) where
  run : Run (Proc W)
  vs : Vmas
  out : Option (List Byte)
  ret : Int

/-- `update_task_vmas_ulp` (src/task/patch.c:124-127); its result is not looked at. -/
def reread (vs : Vmas) (lines : Option (List (Nat × Line))) : Option Vmas :=
  match lines with
  | none => some vs
  | some l => readTaskVmas vs true l

/-- The output file after a dump. -/
def withOut {W : Type} (s : Run' W) (x : Option (Option (List Byte) × Int)) : Option (Run' W) :=
  x.map fun y => { s with out := y.1 }

/-- One of the things that `ultask` does with the process (src/ultask.c:882-930).  In
`mmap_a_file` the mappings are read again at the label `close_ret` only, that is, if its last
request was `PTRACE_DETACH` (src/ultask.c:654-658).  `task_vdso_vma` may return a null pointer,
which is used (src/ultask.c:906-909). -/
def act {W : Type} (k : Kern (Proc W)) (arch : Arch) (c : Circ) (s : Run' W) : Act → Option (Run' W)
  | .mprotect addr len prot =>
    (mprotectRegion k s.vs addr len prot s.run).map fun x => { s with run := x.1, ret := s.ret + x.2 }
  | .map file addr ro noexec =>
    (mmapFile k c.fs s.vs file addr ro noexec ⟨s.run.w, []⟩).bind fun x =>
      let s' := { s with run := ⟨x.1.w, s.run.log ++ x.1.log⟩, ret := s.ret + x.2 }
      if x.1.log.getLast? = some .detach then (reread s.vs c.lines).map fun vs => { s' with vs := vs }
      else some s'
  | .unmap addr =>
    (munmapVma k c.fs s.vs addr s.run).map fun x => { s with run := x.1, ret := s.ret + x.2 }
  | .dumpVma file addr =>
    withOut s (dumpVma s.vs s.run.w.mem addr { c.dump (.dumpVma file addr) with file := s.out })
  | .dumpVdso file =>
    match c.vdso with
    | none => none
    | some a => withOut s (dumpVma s.vs s.run.w.mem (a + 1) { c.dump (.dumpVdso file) with file := s.out })
  | .dumpMem file addr size =>
    withOut s (dumpAddr s.vs s.run.w.mem addr size { c.dump (.dumpMem file addr size) with file := s.out })
  | .jmp src dst =>
    (runJmp arch s.vs s.run.w.mem src dst c.rd c.wr).map fun x =>
      { s with run := ⟨⟨s.run.w.w, x.1⟩, s.run.log⟩ }
  | .printTask => some s
  | .auxv => some s
  | .status => some s
  | .vmas => some s
  | .symbols => some s
  | .threads => some s
  | .fds => some s
  | .disasm _ _ => some s

/-- One after the other (src/ultask.c:882-930). -/
def doActs {W : Type} (k : Kern (Proc W)) (arch : Arch) (c : Circ) : Run' W → List Act → Option (Run' W)
  | s, [] => some s
  | s, a :: as => (act k arch c s a).bind fun s => doActs k arch c s as

/-- The end of a run: the process, the requests, the output file and the status. -/
structure Done (W : Type) where
  proc : Proc W
  log : List Req
  out : Option (List Byte)
  status : Int

/-- `ultask` (src/ultask.c:855-935).  `vs` are the mappings that `open_task` has read.  When the
program ends, the kernel detaches it from a process that it still traces (ptrace(2)).  `none`:
undefined behaviour. -/
def ultask {W : Type} (k : Kern (Proc W)) (arch : Arch) (e : Cli.Env) (c : Circ) (vs : Vmas)
    (out : Option (List Byte)) (p : Proc W) (opts : List Opt) : Option (Done W) :=
  match taskParse e opts with
  | .error n => some ⟨p, [], out, n⟩
  | .ok g =>
    if c.starts = false then some ⟨p, [], out, 1⟩
    else if c.opens = false then some ⟨p, [], out, 1⟩
    else
      (doActs k arch c ⟨⟨p, []⟩, vs, out, 0⟩ (acts g)).map fun s =>
        ⟨if s.run.log = [] then s.run.w else (k.ask s.run.w .detach).1, s.run.log, s.out, s.ret⟩

end Ulp.TaskRun
