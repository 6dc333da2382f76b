/-
The threads of a process during whole histories of commands of ulpatch: patches of several functions, on
top of each other, with the files that are loaded.  As `Model/Threads`, which has one function and leaves out
the files.  Simplifications: every call succeeds (for failures see `Model/Patch` and `Proof/LateFail`); system
calls that the main thread makes for ulpatch are one action (for what they are made of see
`Model/ThreadsCall`).
-/
import Verif.Model.Threads
namespace Ulp.ThreadsHist
open Threads (Proc Mode poke)

/-- An action of a thread or of ulpatch, as in `Model/Threads`. -/
inductive Act where
  /-- thread `i` executes an instruction -/
  | run (i : Nat)
  /-- `task_attach`, `task_detach` (src/task/core.c:681-733) -/
  | attach (i : Nat)
  | detach (i : Nat)
  /-- one byte of a `memcpy_to_task` (src/task/memcpy.c:80-92) -/
  | store (a : Addr) (b : Byte)
  /-- `task_mmap`, `task_munmap` (src/task/syscall.c:242-269) -/
  | map (a : Addr) (n : Nat)
  | unmap (a : Addr) (n : Nat)
  /-- `memcpy_from_task` (src/task/memcpy.c:66-78) reads the bytes `bs` -/
  | look (a : Addr) (bs : List Byte)
  /-- for the specification: what the function at `f` does from here on -/
  | mark (f : Addr) (m : Mode)
  deriving DecidableEq

/-- One action.  `none`: the process is killed, or ulpatch reads something else. -/
def act {I : Isa} (p : Proc I) : Act → Option (Proc I)
  | .run i => p.run i
  | .attach i => some { p with stopped := fun j => if j = i then true else p.stopped j }
  | .detach i => some { p with stopped := fun j => if j = i then false else p.stopped j }
  | .store a b => some { p with mem := poke p.mem a b }
  | .map a n => some { p with mapped := fun x => p.mapped x || decide ((x - a).toNat < n) }
  | .unmap a n => some { p with mapped := fun x => p.mapped x && !decide ((x - a).toNat < n) }
  | .look a bs => if p.mem.read a bs.length = bs then some p else none
  | .mark _ _ => some p

/-- Actions one after the other. -/
def acts {I : Isa} (p : Proc I) : List Act → Option (Proc I)
  | [] => some p
  | a :: l =>
    match act p a with
    | none => none
    | some q => acts q l

/-- A write of memory (src/task/memcpy.c:80-92). -/
def copyTo (a : Addr) (bs : List Byte) : List Act := (storesAt a bs).map fun e => .store e.1 e.2

/-- A patch in the process: the function it is for, where that goes, its mapping, where in it the replaced
code is kept, and that code (`struct ulpatch_info`, src/patch/meta.h:112-163, and `struct
vma_ulp`, src/task/patch.h:13-30). -/
structure Live where
  f : Addr
  p : Addr
  start : Addr
  len : Nat
  keep : Addr
  saved : List Byte

/-- A command: `ulpatch --patch` with a file that has `img` as its linked image and is mapped at `start`, and
`ulpatch --unpatch` (src/ulpatch.c:200-242). -/
inductive Cmd where
  | patch (f p start : Addr) (img : List Byte) (len : Nat) (keep : Addr)
  | unpatch

/-- The code `o` with the entries of the patches, the newest first in the list (src/patch/patch.c:893-911). -/
def under (arch : Arch) (o : Mem) : List Live → Mem
  | [] => o
  | v :: st => (under arch o st).write v.f (jmpEntry arch v.p)

/-- What the function at `f` does with these patches. -/
def modeOf (f : Addr) : List Live → Mode
  | [] => .original
  | v :: st => if v.f = f then .redirect v.p else modeOf f st

/-- `init_patch` (src/patch/patch.c:976-1037): the file is mapped (`create_mmap_vma_file`,
src/patch/patch.c:306-367), the code to be replaced is read, the image and then the entry are written
(`kick_target_process`, src/patch/patch.c:859-917). -/
def patchActs (arch : Arch) (saved : List Byte) (f p start : Addr) (img : List Byte) (len : Nat) : List Act :=
  [.attach 0, .map start len, .detach 0, .look f saved] ++ copyTo start img ++
    [.attach 0, .mark f .changing] ++ copyTo f (jmpEntry arch p) ++ [.mark f (.redirect p), .detach 0]

/-- `delete_patch` (src/patch/patch.c:1040-1091) for the newest patch `v`, with the others in `st`: the code
that was kept is read from the mapping (`alloc_ulp`, src/task/patch.c:29-65) and written back, and the mapping is
removed. -/
def unpatchActs (v : Live) (st : List Live) : List Act :=
  [.look v.keep v.saved, .attach 0, .mark v.f .changing] ++ copyTo v.f v.saved ++
    [.mark v.f (modeOf v.f st), .unmap v.start v.len, .detach 0]

/-- The actions of ulpatch for commands one after the other, in a process with code `o` and the patches `st`
(src/ulpatch.c:200-242). -/
def toolActs (arch : Arch) (o : Mem) : List Live → List Cmd → List Act
  | _, [] => []
  | st, .patch f p start img len keep :: l =>
    patchActs arch ((under arch o st).read f 16) f p start img len ++
      toolActs arch o (⟨f, p, start, len, keep, (under arch o st).read f 16⟩ :: st) l
  | [], .unpatch :: l => toolActs arch o [] l
  | v :: st, .unpatch :: l => unpatchActs v st ++ toolActs arch o st l

/-- The patches that are there after the commands. -/
def liveAfter (arch : Arch) (o : Mem) : List Live → List Cmd → List Live
  | st, [] => st
  | st, .patch f p start _ len keep :: l => liveAfter arch o (⟨f, p, start, len, keep, (under arch o st).read f 16⟩ :: st) l
  | [], .unpatch :: l => liveAfter arch o [] l
  | _ :: st, .unpatch :: l => liveAfter arch o st l

/-- Is this an action of ulpatch? -/
def Act.isTool : Act → Bool
  | .run _ => false
  | _ => true

end Ulp.ThreadsHist
