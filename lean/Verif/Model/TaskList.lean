/-
The threads and the file descriptors of a process (src/task/thread.c, src/task/fd.c), and
reading a directory (src/utils/file.c).

The lists of C are lists here: `list_add` adds at the tail (src/utils/list.h:77-80, see
Model/CList.lean).  Memory is not exhausted, and what is logged is not modelled.
-/
import Verif.Model.Cli
import Verif.Model.VmaType
namespace Ulp.TaskList
open Ulp.Load (lit)
open Ulp.Cli (atoi)
open Ulp.VmaType (dec)

/-- `FTO_THREADS` (src/task/flags.h:33). -/
def FTO_THREADS : BitVec 32 := 0x10

/-- `FTO_FD` (src/task/flags.h:41). -/
def FTO_FD : BitVec 32 := 0x40

/-- What is undefined: `list_add` of the null pointer that `alloc_fd` gave
(src/task/fd.c:53-54), and `%s` of an array without a NUL (src/task/fd.c:68). -/
inductive Crash where
  | nullFd
  | noNul
  deriving DecidableEq

/-- `dir_iter` (src/utils/file.c:411-432), for the names that `readdir` gives, `.` and `..`
among them; `none` if the directory cannot be opened.  The callback changes the state `σ`. -/
def dirIter {σ : Type} (names : Option (List (List Byte))) (cb : σ → List Byte → Except Crash σ)
    (s : σ) : Except Crash (σ × Int) :=
  match names with
  | none => .ok (s, -22)
  | some ns =>
    ((ns.filter fun n => ¬ (n = lit "." ∨ n = lit "..")).foldlM cb s).map fun s => (s, 0)

/-- `dir_iter_callback_thread` with `alloc_thread` (src/task/thread.c:14-21, 29-49). -/
def threadCb (l : List (BitVec 32)) (name : List Byte) : Except Crash (List (BitVec 32)) :=
  .ok (l ++ [atoi name])

/-- `task_load_threads` (src/task/thread.c:51-60), for the names in `/proc/PID/task/`; the
list is empty before (src/task/thread.c:8-12). -/
def loadThreads (flag : BitVec 32) (names : Option (List (List Byte))) :
    Except Crash (List (BitVec 32)) :=
  if flag &&& FTO_THREADS = 0 then .ok []
  else (dirIter names threadCb []).map (·.1)

/-- `printf("%d", x)` (libc, for src/task/thread.c:65, src/task/fd.c:68). -/
def fmtInt (x : BitVec 32) : List Byte :=
  if x.toInt < 0 then lit "-" ++ dec x.toInt.natAbs else dec x.toNat

/-- `print_thread` (src/task/thread.c:62-66). -/
def printThread (pid tid : BitVec 32) : List Byte :=
  lit "pid " ++ fmtInt pid ++ lit ", tid " ++ fmtInt tid ++ lit "\n"

/-- `dump_task_threads` (src/task/thread.c:68-82). -/
def dumpThreads (flag pid : BitVec 32) (l : List (BitVec 32)) : List Byte :=
  if flag &&& FTO_THREADS = 0 then [] else (l.map (printThread pid)).flatten

/-- `struct fd` (src/task/fd.h:12-19): the number and the characters of `symlink`, which
end with the array if there is no NUL. -/
structure Fd where
  fd : BitVec 32
  symlink : List Byte
  deriving DecidableEq

/-- `PATH_MAX`, the size of `symlink` (src/task/fd.h:16). -/
def PATH_MAX : Nat := 4096

/-- `alloc_fd` (src/task/fd.c:16-40): `none` is the null pointer.  `readlink` is what the
system says of `/proc/PID/fd/FD` at that moment. -/
def allocFd (readlink : BitVec 32 → Option (List Byte)) (fd : BitVec 32) : Option Fd :=
  match readlink fd with
  | none => none
  | some t => some ⟨fd, t.take PATH_MAX⟩

/-- `dir_iter_callback_fd` (src/task/fd.c:48-55). -/
def fdCb (readlink : BitVec 32 → Option (List Byte)) (l : List Fd) (name : List Byte) :
    Except Crash (List Fd) :=
  match allocFd readlink (atoi name) with
  | none => .error .nullFd
  | some f => .ok (l ++ [f])

/-- `task_load_fds` (src/task/fd.c:57-64), for the names in `/proc/PID/fd/`. -/
def loadFds (flag : BitVec 32) (names : Option (List (List Byte)))
    (readlink : BitVec 32 → Option (List Byte)) : Except Crash (List Fd) :=
  if flag &&& FTO_FD = 0 then .ok []
  else (dirIter names (fdCb readlink) []).map (·.1)

/-- `print_fd` (src/task/fd.c:66-69). -/
def printFd (f : Fd) : Except Crash (List Byte) :=
  if f.symlink.length < PATH_MAX then
    .ok (lit "fd " ++ fmtInt f.fd ++ lit " -> " ++ f.symlink ++ lit "\n")
  else .error .noNul

/-- `dump_task_fds` (src/task/fd.c:71-85). -/
def dumpFds (flag : BitVec 32) (l : List Fd) : Except Crash (List Byte) :=
  if flag &&& FTO_FD = 0 then .ok [] else (l.mapM printFd).map List.flatten

end Ulp.TaskList
