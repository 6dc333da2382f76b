/-
Files and directories (src/utils/file.c): copying, creating and removing files.

The file system is a finite list of paths with what is there.  Paths are absolute, without
`.` and `..`, and kept with the last name first.  There are no hard links and no other
process changes the files meanwhile.  What is logged is not modelled.
-/
import Verif.Model.Load
namespace Ulp.Files

/-- A name in a directory (`d_name`, src/utils/file.c:144-147). -/
abbrev Name := List Byte

/-- An absolute path, the last name first; the root is `[]` (the strings handed to the
functions of src/utils/file.c:22-433). -/
abbrev Path := List Name

/-- What is at a path: the kinds that src/utils/file.c:61, 76, 95, 138, 141 tell apart.
`special` is a device, a pipe or a socket. -/
inductive Obj where
  | reg (data : List Byte)
  | dir
  | link (to : Path)
  | special
  deriving DecidableEq

/-- The files (the system, src/utils/file.c:22-433).  The root is not in the list. -/
abbrev FS := List (Path × Obj)

/-- What the system refuses: directories that cannot be listed (`opendir`,
src/utils/file.c:142), directories in which nothing can be created or removed, and regular
files that cannot be opened for reading. -/
structure Env where
  noList : Path → Bool
  noWrite : Path → Bool
  noRead : Path → Bool

/-- What ends the program or is undefined: `readdir(NULL)` (src/utils/file.c:143), the
`sprintf` behind the end of `dir_name` (src/utils/file.c:147), and an `int` that counts too
far (src/utils/file.c:110, 230). -/
inductive Crash where
  | nullDir
  | nameTooLong
  | intOverflow
  deriving DecidableEq

/-- What is at a path, links not followed (the system, `lstat` of the real path,
src/utils/file.c:59, 74, 93). -/
def FS.get (fs : FS) : Path → Option Obj
  | [] => some .dir
  | n :: p => (fs.find? fun e => e.1 = n :: p).map (·.2)

/-- Entering a file in its directory (the system, `open` with `O_CREAT`,
src/utils/file.c:100, 212). -/
def FS.add (fs : FS) (p : Path) (o : Obj) : FS := (p, o) :: fs

/-- Removing an entry (the system, `unlink` and `rmdir`, src/utils/file.c:77, 79, 140,
152). -/
def FS.erase (fs : FS) (p : Path) : FS := fs.filter fun e => e.1 ≠ p

/-- The names in a directory, without `.` and `..` (`readdir` and src/utils/file.c:143-146).
The model reads all names before anything is removed. -/
def FS.names (fs : FS) (d : Path) : List Name :=
  fs.filterMap fun e =>
    match e.1 with
    | [] => none
    | n :: p => if p = d then some n else none

/-- What the search for a path finds: the real path of what is there, the real directory
and the name if only the last name is missing, or the number of the error (path_resolution,
for src/utils/file.c:27, 48, 100, 132, 142, 207, 212). -/
inductive Found where
  | at (p : Path)
  | missing (d : Path) (n : Name)
  | error (errno : Int)

/-- The search from the directory `cur`, following at most `k` symbolic links
(path_resolution). -/
def walk (fs : FS) (k : Nat) (cur : Path) : List Name → Found
  | [] => .at cur
  | n :: rest =>
    if fs.get cur = some .dir then
      match fs.get (n :: cur) with
      | none => if rest = [] then .missing cur n else .error 2
      | some (.link t) =>
        match k with
        | 0 => .error 40
        | k + 1 => walk fs k [] (t.reverse ++ rest)
      | some _ => walk fs k (n :: cur) rest
    else .error 20
  termination_by rest => (k, rest.length)

/-- `MAXSYMLINKS`, the links that Linux follows in one search (path_resolution). -/
def MAXSYMLINKS : Nat := 40

/-- The search for a path, a link at its end followed (path_resolution). -/
def resolve (fs : FS) (p : Path) : Found := walk fs MAXSYMLINKS [] p.reverse

/-- `stat` (src/utils/file.c:132): where the path leads, and what is there. -/
def stat (fs : FS) (p : Path) : Option (Path × Obj) :=
  match resolve fs p with
  | .at q => (fs.get q).map fun o => (q, o)
  | _ => none

/-- The search for a path, a link at its end not followed (path_resolution, for
src/utils/file.c:59, 74, 77, 79, 93, 100, 140, 152). -/
def resolveLast (fs : FS) : Path → Found
  | [] => .at []
  | n :: p =>
    match resolve fs p with
    | .at d =>
      if fs.get d = some .dir then
        match fs.get (n :: d) with
        | none => .missing d n
        | some _ => .at (n :: d)
      else .error 20
    | .missing _ _ => .error 2
    | .error e => .error e

/-- `lstat` (src/utils/file.c:59, 74, 93). -/
def lstat (fs : FS) (p : Path) : Option Obj :=
  match resolveLast fs p with
  | .at q => fs.get q
  | _ => none

/-- `fexist` (src/utils/file.c:42-49): `access` follows links. -/
def fexist (fs : FS) (p : Path) : Bool := (stat fs p).isSome

/-- `fregular` (src/utils/file.c:52-62): `lstat` does not. -/
def fregular (fs : FS) (p : Path) : Bool :=
  if fexist fs p then
    match lstat fs p with
    | some (.reg _) => true
    | _ => false
  else false

/-- `unlink` (the system, src/utils/file.c:79): the new files, and whether it was done. -/
def unlink (env : Env) (fs : FS) (p : Path) : FS × Bool :=
  match resolveLast fs p with
  | .at [] => (fs, false)
  | .at (n :: d) =>
    if env.noWrite d then (fs, false)
    else if fs.get (n :: d) = some .dir then (fs, false)
    else (fs.erase (n :: d), true)
  | _ => (fs, false)

/-- `rmdir` (the system, src/utils/file.c:77, 152). -/
def rmdir (env : Env) (fs : FS) (p : Path) : FS × Bool :=
  match resolveLast fs p with
  | .at [] => (fs, false)
  | .at (n :: d) =>
    if env.noWrite d then (fs, false)
    else if fs.get (n :: d) = some .dir ∧ fs.names (n :: d) = [] then (fs.erase (n :: d), true)
    else (fs, false)
  | _ => (fs, false)

/-- `fremove` (src/utils/file.c:64-82); 0 or -1. -/
def fremove (env : Env) (fs : FS) : Option Path → FS × Int
  | none => (fs, -1)
  | some p =>
    if fexist fs p = false then (fs, 0)
    else
      let r := if lstat fs p = some .dir then rmdir env fs p else unlink env fs p
      (r.1, if r.2 then 0 else -1)

/-- `PATH_MAX` (linux/limits.h), the size of `dir_name` (src/utils/file.c:124). -/
def PATH_MAX : Nat := 4096

/-- The length of the text of a path: a slash before every name. -/
def strlen : Path → Nat
  | [] => 0
  | n :: p => strlen p + 1 + n.length

/-- `__remove_recursive` (src/utils/file.c:119-157), which always returns 0 here: what
`access` finds, `stat` finds too.  `remove` of something that `stat` calls a regular file
is `unlink`; neither its result nor that of `rmdir` is looked at. -/
def removeRecursive (env : Env) (fs : FS) (p : Path) : Except Crash FS :=
  match stat fs p with
  | none => .ok fs
  | some (_, .reg _) => .ok (unlink env fs p).1
  | some (d, .dir) =>
    if env.noList d then .error .nullDir
    else
      ((fs.names d).foldlM
        (fun fs n =>
          if _h : strlen (n :: p) < PATH_MAX then removeRecursive env fs (n :: p)
          else .error .nameTooLong) fs).map
        fun fs => (rmdir env fs p).1
  | some _ => .ok fs
  termination_by PATH_MAX - strlen p
  decreasing_by simp only [strlen] at *; omega

/-- `fremove_recursive` (src/utils/file.c:159-162). -/
def fremoveRecursive (env : Env) (fs : FS) (p : Path) : Except Crash (FS × Int) :=
  (removeRecursive env fs p).map fun fs => (fs, 0)

/-- The streams of a copy: at which byte reading fails, how many bytes the disk takes, and
the size of the buffer of a stream (libc and the system, for src/utils/file.c:207-234). -/
structure Io where
  bad : Option Nat
  room : Nat
  block : Nat

/-- The stream that is written: what has gone to the disk, and what waits in the buffer
(libc, src/utils/file.c:212). -/
structure Out where
  disk : List Byte
  buf : List Byte

/-- Writing the buffer to the disk (libc, `fflush`, for src/utils/file.c:226, 234): as much
as the disk takes; the flag tells whether it was all. -/
def Out.flush (io : Io) (o : Out) : Out × Bool :=
  let b := o.buf.take (io.room - o.disk.length)
  (⟨o.disk ++ b, []⟩, b.length = o.buf.length)

/-- `fwrite` of one byte (libc, src/utils/file.c:226): into the buffer, which is written out
when it is full. -/
def Out.put (io : Io) (o : Out) (c : Byte) : Out × Bool :=
  if o.buf.length < io.block then (⟨o.disk, o.buf ++ [c]⟩, true)
  else
    let r := o.flush io
    if r.2 then (⟨r.1.disk, [c]⟩, true) else (r.1, false)

/-- The loop of `_file_copy` (src/utils/file.c:219-231) over the bytes that are left to
read; `n` have been copied. -/
def copyLoop (io : Io) : List Byte → Nat → Out → Out × Nat
  | [], n, o => (o, n)
  | c :: r, n, o =>
    if io.bad = some n then (o, n)
    else
      let w := o.put io c
      if w.2 then copyLoop io r (n + 1) w.1 else (w.1, n)

/-- `fopen(path, "r")` (src/utils/file.c:207): the bytes that can be read.  A directory can
be opened, but reading from it fails; nothing is read from devices here. -/
def openRead (env : Env) (fs : FS) (p : Path) : Except Int (List Byte) :=
  match resolve fs p with
  | .at q =>
    match fs.get q with
    | some (.reg b) => if env.noRead q then .error (-13) else .ok b
    | _ => .ok []
  | .missing _ _ => .error (-2)
  | .error e => .error (-e)

/-- `INT_MAX`, what the counters of src/utils/file.c:108, 205 can hold. -/
def INT_MAX : Nat := 2 ^ 31 - 1

/-- `_file_copy` (src/utils/file.c:202-239).  `dst` does not exist, so `fopen(dst, "w")`
creates it; the result of `fclose`, which writes out the buffer, is not looked at. -/
def fileCopy (env : Env) (io : Io) (fs : FS) (src dst : Path) : Except Crash (FS × Int) :=
  match openRead env fs src with
  | .error e => .ok (fs, e)
  | .ok data =>
    match resolve fs dst with
    | .missing d n =>
      if env.noWrite d then .ok (fs, -13)
      else
        let r := copyLoop io data 0 ⟨[], []⟩
        if r.2 ≤ INT_MAX then .ok (fs.add (n :: d) (.reg (r.1.flush io).1.disk), r.2)
        else .error .intOverflow
    | .at _ => .ok (fs, -17)
    | .error e => .ok (fs, -e)

/-- `fcopy` (src/utils/file.c:241-258). -/
def fcopy (env : Env) (io : Io) (fs : FS) (src dst : Option Path) : Except Crash (FS × Int) :=
  match src, dst with
  | some src, some dst =>
    if fexist fs src = false ∨ fexist fs dst = true then .ok (fs, -17)
    else (fileCopy env io fs src dst).map fun r => (r.1, if r.2 ≤ 0 then r.2 else 0)
  | _, _ => .ok (fs, -22)

/-- `ftouch` (src/utils/file.c:85-117).  `open` with `O_EXCL` does not follow a link at the
end.  `write` of one byte at a time stops when the disk is full. -/
def ftouch (env : Env) (io : Io) (fs : FS) (p : Option Path) (size : Nat) :
    Except Crash (FS × Int) :=
  match p with
  | none => .ok (fs, -1)
  | some p =>
    if fexist fs p = true then
      match lstat fs p with
      | some (.reg _) => .ok (fs, 0)
      | _ => .ok (fs, -1)
    else
      match resolveLast fs p with
      | .at _ => .ok (fs, -17)
      | .missing d n =>
        if env.noWrite d then .ok (fs, -13)
        else if size ≤ INT_MAX then
          .ok (fs.add (n :: d) (.reg (List.replicate (min size io.room) 0xff)), 0)
        else .error .intOverflow
      | .error e => .ok (fs, -e)

end Ulp.Files
