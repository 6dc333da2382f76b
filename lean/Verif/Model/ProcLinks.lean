/-
The files and links in `/proc/PID` that are opened or read by name (src/task/proc.c:22-99).

Strings carry no NUL.  What is logged is not modelled.
-/
import Verif.Model.TaskList
namespace Ulp.ProcLinks
open Ulp.Load (lit)
open Ulp.TaskList (fmtInt)

/-- What the system answers: the text of a link (`readlink`), whether a path leads to a file
(`fexist`, src/utils/file.c:29-32), and the descriptor of a file that is opened or -1. -/
structure Sys where
  link : List Byte → Option (List Byte)
  exist : List Byte → Bool
  openFile : List Byte → BitVec 32 → BitVec 32

/-- What is undefined: writing behind the end of an array. -/
inductive Crash where
  | overflow
  deriving DecidableEq

/-- `PATH_MAX` (limits.h). -/
def PATH_MAX : Nat := 4096

/-- `snprintf` into an array of this size (libc). -/
def fit (size : Nat) (s : List Byte) : List Byte := s.take (size - 1)

/-- `open_pid_maps` (src/task/proc.c:22-34): the name of the file that is opened and the
result.  The array `maps` has the size of its initialiser, 22. -/
def openPidMaps (s : Sys) (pid : BitVec 32) : List Byte × BitVec 32 :=
  let maps := fit 22 (lit "/proc/" ++ fmtInt pid ++ lit "/maps")
  let fd := s.openFile maps 0
  (maps, if fd.toInt ≤ 0 then -1 else fd)

/-- `open_pid_mem_flags` (src/task/proc.c:36-46): the name of the file that is opened and the
result.  The array `mem` has the size of its initialiser, 21; `errno` is its value behind the
call of `open`. -/
def openPidMemFlags (s : Sys) (errno : BitVec 32) (pid flags : BitVec 32) :
    List Byte × BitVec 32 :=
  let mem := fit 21 (lit "/proc/" ++ fmtInt pid ++ lit "/mem")
  let fd := s.openFile mem flags
  (mem, if fd.toInt ≤ 0 then -errno else fd)

/-- `O_RDONLY` and `O_RDWR` (fcntl.h). -/
def O_RDONLY : BitVec 32 := 0
def O_RDWR : BitVec 32 := 2

/-- `open_pid_mem_ro` (src/task/proc.c:48-51). -/
def openPidMemRo (s : Sys) (errno pid : BitVec 32) : List Byte × BitVec 32 :=
  openPidMemFlags s errno pid O_RDONLY

/-- `open_pid_mem_rw` (src/task/proc.c:53-56). -/
def openPidMemRw (s : Sys) (errno pid : BitVec 32) : List Byte × BitVec 32 :=
  openPidMemFlags s errno pid O_RDWR

/-- `proc_pid_exist` (src/task/proc.c:58-63). -/
def procPidExist (s : Sys) (pid : BitVec 32) : Bool :=
  s.exist (fit PATH_MAX (lit "/proc/" ++ fmtInt pid))

/-- `strncpy` into the array `buf` (libc). -/
def strncpy (buf p : List Byte) (n : Nat) : List Byte :=
  p.take n ++ List.replicate (n - p.length) 0 ++ buf.drop n

/-- `read_proc_pid_symlink` (src/task/proc.c:65-89), for the caller's array `buf`: the array
that is returned, or `none` for the null pointer. -/
def readProcPidSymlink (s : Sys) (pid : BitVec 32) (name buf : List Byte) (bufsz : Nat) :
    Except Crash (Option (List Byte)) :=
  match s.link (fit PATH_MAX (lit "/proc/" ++ fmtInt pid ++ lit "/" ++ name)) with
  | none => .ok none
  | some target =>
    let realpath := target.take PATH_MAX
    if PATH_MAX ≤ realpath.length then .error .overflow
    else if s.exist realpath = false then .ok none
    else if buf.length < bufsz then .error .overflow
    else .ok (some (strncpy buf realpath bufsz))

/-- `proc_pid_exe` (src/task/proc.c:91-94). -/
def procPidExe (s : Sys) (pid : BitVec 32) (buf : List Byte) (bufsz : Nat) :
    Except Crash (Option (List Byte)) := readProcPidSymlink s pid (lit "exe") buf bufsz

/-- `proc_pid_cwd` (src/task/proc.c:96-99). -/
def procPidCwd (s : Sys) (pid : BitVec 32) (buf : List Byte) (bufsz : Nat) :
    Except Crash (Option (List Byte)) := readProcPidSymlink s pid (lit "cwd") buf bufsz

end Ulp.ProcLinks
