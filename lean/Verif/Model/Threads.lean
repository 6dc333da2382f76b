/-
The threads of a process while the first bytes of a function are exchanged: the last stage of
`kick_target_process` (src/patch/patch.c:893-911) and `delete_patch` (src/patch/patch.c:1066-1088)
as single actions, between which the threads run.

`task_attach` (src/task/core.c:681-721) stops the one thread it is given, which is the main thread,
here number 0; `task_detach` (src/task/core.c:723-733) lets it go on where it was.  No other thread
is stopped.  `memcpy_to_task` (src/task/memcpy.c:80-92) is a `pwrite`: the kernel copies the bytes
one after the other and threads may run in between.  Simplifications: every call succeeds (for
failures see `Model/Patch`); `task_munmap`, which is a system call made by the main thread
(`Model/Ptrace`), is one action.
-/
import Verif.Model.JmpTable
import Verif.Spec.Processor
namespace Ulp.Threads

/-- A process: its memory, which addresses are mapped, and the registers of its threads.  A
thread is stopped if ulpatch has attached to it. -/
structure Proc (I : Isa) where
  mem : Mem
  mapped : Addr → Bool
  regs : Nat → I.Regs
  stopped : Nat → Bool

/-- Store one byte. -/
def poke (m : Mem) (a : Addr) (b : Byte) : Mem := fun x => if x = a then b else m x

/-- What the function does at the moment; marks have no effect and are there for the
specification. -/
inductive Mode where
  /-- it has its own code -/
  | original
  /-- its first bytes are being exchanged -/
  | changing
  /-- it jumps to `p` -/
  | redirect (p : Addr)
  deriving DecidableEq

inductive Act where
  /-- thread `i` executes an instruction -/
  | run (i : Nat)
  | attach (i : Nat)
  | detach (i : Nat)
  | store (a : Addr) (b : Byte)
  | unmap (a : Addr) (n : Nat)
  | mark (m : Mode)
  deriving DecidableEq

/-- One instruction of thread `i`; a stopped thread does nothing.  `none`: the process is killed,
by an access to an address that is not mapped or by bytes that are no instruction. -/
def Proc.run {I : Isa} (i : Nat) (p : Proc I) : Option (Proc I) :=
  if p.stopped i then some p
  else if (I.reads p.mem (p.regs i)).all p.mapped = false then none
  else match I.step p.mem (p.regs i) with
    | none => none
    | some e =>
      if e.2.all (fun s => p.mapped s.1) = false then none
      else some { p with
        mem := e.2.foldl (fun m s => poke m s.1 s.2) p.mem
        regs := fun j => if j = i then e.1 else p.regs j }

/-- One action. -/
def Proc.act {I : Isa} (p : Proc I) : Act → Option (Proc I)
  | .run i => p.run i
  | .attach i => some { p with stopped := fun j => if j = i then true else p.stopped j }
  | .detach i => some { p with stopped := fun j => if j = i then false else p.stopped j }
  | .store a b => some { p with mem := poke p.mem a b }
  | .unmap a n => some { p with mapped := fun x => p.mapped x && !decide ((x - a).toNat < n) }
  | .mark _ => some p

/-- Actions one after the other; `none` if the process is killed. -/
def Proc.acts {I : Isa} (p : Proc I) : List Act → Option (Proc I)
  | [] => some p
  | a :: l =>
    match p.act a with
    | none => none
    | some q => q.acts l

/-- A write of memory (src/task/memcpy.c:80-92). -/
def copyTo (a : Addr) (bs : List Byte) : List Act := (storesAt a bs).map fun e => .store e.1 e.2

/-- The redirection of the function at `f` to `p` (src/patch/patch.c:893-911). -/
def kickActs (arch : Arch) (f p : Addr) : List Act :=
  [.attach 0, .mark .changing] ++ copyTo f (jmpEntry arch p) ++ [.mark (.redirect p), .detach 0]

/-- Taking it back (src/patch/patch.c:1066-1088): `orig` are the 16 bytes that were saved, `start`
and `len` the mapping of the patch. -/
def deleteActs (f : Addr) (orig : List Byte) (start : Addr) (len : Nat) : List Act :=
  [.attach 0, .mark .changing] ++ copyTo f orig ++ [.mark .original, .unmap start len, .detach 0]

/-- Is this an action of ulpatch? -/
def Act.isTool : Act → Bool
  | .run _ => false
  | _ => true

/-- The commands for the function at `f`, one after the other: redirect to `p`, take back the
redirection by the patch in a mapping. -/
inductive Cmd where
  | patch (p : Addr)
  | unpatch (start : Addr) (len : Nat)

/-- What ulpatch does for a list of commands, on a function that begins with `orig`. -/
def toolActs (arch : Arch) (f : Addr) (orig : List Byte) : List Cmd → List Act
  | [] => []
  | .patch p :: l => kickActs arch f p ++ toolActs arch f orig l
  | .unpatch start len :: l => deleteActs f orig start len ++ toolActs arch f orig l

end Ulp.Threads
