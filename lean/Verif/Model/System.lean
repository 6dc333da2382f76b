/-
Runs of `ulpatch` and `ulftrace`, one after the other, in a system with any number of
processes: from the command line and the files to the memory of the processes.
-/
import Verif.Model.Cli
import Verif.Model.CheckFile
import Verif.Model.FileHist
namespace Ulp.Sys
open LoadBytes (FileCmd runFile Machine)

/-- The files as seen from the working directory of the tools, the processes, and the tracing
object that is installed, `ULPATCH_OBJ_FTRACE_MCOUNT_PATH` (src/ulftrace.c:134-141, 196).
Simplifications: the object is there; the files in `/tmp/ulpatch` are not part of `files` (see
C62). -/
structure System where
  files : PFile.Path → Option (List Byte)
  procs : BitVec 32 → Option Patch.World
  objPath : PFile.Path
  object : List Byte

/-- What a run meets, besides its command line, the files and the process: the answers to the
calls of the check (src/ulpatch.c:155-188), whether `ulpatch_init` and `open_task` succeed
(src/ulpatch.c:215-222), whether a file is a relocatable object by its contents (`ftype`,
src/ulftrace.c:148), and what `FileCmd` is given. -/
structure Circ where
  code : Nat → Int
  starts : Bool
  opens : Bool
  reloc : List Byte → Bool
  rd : Patch.Mapping → Patch.ReadRes
  hdr : Addr
  find : List Byte → Option (BitVec 64)
  now : BitVec 64
  e : Patch.PatchEnv
  d : Patch.DeleteEnv

/-- How a run ends: with a status, or by a signal. -/
inductive Out where
  | status (n : Int)
  | crashed
  deriving DecidableEq

/-- `check_patch_file` (src/ulpatch.c:155-188) in a new program: its result, and the system
after it. -/
def check (s : System) (c : Circ) (file : Option PFile.Path) : Except PFile.Crash Int × System :=
  let r := PFile.checkPatchFile ⟨c.code, id⟩ file ⟨s.files, [], 0, 0⟩
  (r.1, { s with files := r.2.files })

/-- The bytes of the file that are loaded: `fsize` gives an `int`
(src/utils/file.c:22-40, src/patch/patch.c:205). -/
def contents (s : System) (file : Option PFile.Path) : Option (List Byte) :=
  match file with
  | none => none
  | some f => (s.files f).map fun b => b.take (b.length % 2 ^ 32)

/-- The system with another state of the process `p`; no C code. -/
def setProc (s : System) (p : BitVec 32) (w : Patch.World) : System :=
  { s with procs := fun q => if q = p then some w else s.procs q }

/-- After the command line (src/ulpatch.c:215-239, src/ulftrace.c:177-206): `ulpatch_init`,
which exits with 1, `open_task`, for which `fail` is returned if it fails, and the command. -/
def onProc (M : Machine) (s : System) (c : Circ) (p : BitVec 32) (w : Patch.World) (fail : Int) (x : FileCmd) :
    Option (System × Out) :=
  if c.starts = false then some (s, .status 1)
  else if c.opens = false then some (s, .status fail)
  else
    match runFile M w x with
    | none => none
    | some (w', r) => some (setProc s p w', .status r)

/-- `ulpatch` (src/ulpatch.c:84-153, 200-242).  `none`: undefined behaviour while it works on
the process. -/
def ulpatch (M : Machine) (s : System) (opts : List Cli.Opt) (c : Circ) : Option (System × Out) :=
  match opts.foldlM Cli.patchOpt {} with
  | .error n => some (s, .status n)
  | .ok g =>
    if g.cmd = .none then some (s, .status 1)
    else if g.pid = -1 then some (s, .status 1)
    else
      match s.procs g.pid with
      | none => some (s, .status 1)
      | some w =>
        if g.cmd = .unpatch then onProc M s c g.pid w (-2) (.unpatch c.rd c.d)
        else
          match (check s c g.file).1 with
          | .error _ => some ((check s c g.file).2, .crashed)
          | .ok n =>
            if n ≠ 0 then some ((check s c g.file).2, .status 1)
            else
              match contents (check s c g.file).2 g.file with
              | none => some ((check s c g.file).2, .status Load.EEXIST)
              | some b => onProc M (check s c g.file).2 c g.pid w (-2) (.patch c.rd c.hdr c.find c.now b c.e)

/-- What the command line of `ulftrace` is checked against (src/ulftrace.c:124-153). -/
def traceEnv (s : System) (c : Circ) : Cli.Env where
  page := 4096
  pidExists p := (s.procs p).isSome
  exist f := if f = s.objPath then true else (s.files f).isSome
  regular _ := false
  size _ := 0
  cwd := []
  relocatable f :=
    if f = s.objPath then c.reloc s.object
    else
      match s.files f with
      | none => false
      | some b => c.reloc b
  patchOk _ := false

/-- `ulftrace` (src/ulftrace.c:74-206). -/
def ulftrace (M : Machine) (s : System) (opts : List Cli.Opt) (c : Circ) : Option (System × Out) :=
  match Cli.traceParse (traceEnv s c) s.objPath opts with
  | .error n => some (s, .status n)
  | .ok g =>
    match s.procs g.pid, g.func with
    | some w, some func => onProc M s c g.pid w 1 (.trace c.rd c.hdr c.find c.now func s.object c.e c.d)
    | _, _ => some (s, .status 1)

/-- What happens in the system: a run of a tool, a process that begins, a process that ends. -/
inductive Ev where
  | ulpatch (opts : List Cli.Opt) (c : Circ)
  | ulftrace (opts : List Cli.Opt) (c : Circ)
  | begins (p : BitVec 32) (w : Patch.World)
  | ends (p : BitVec 32)

/-- One of them (src/ulpatch.c:200-242, src/ulftrace.c:163-206). -/
def step (M : Machine) (s : System) : Ev → Option (System × Out)
  | .ulpatch opts c => ulpatch M s opts c
  | .ulftrace opts c => ulftrace M s opts c
  | .begins p w => some (setProc s p w, .status 0)
  | .ends p => some ({ s with procs := fun q => if q = p then none else s.procs q }, .status 0)

/-- One after the other; the system at the end and how each ended. -/
def run (M : Machine) (s : System) : List Ev → Option (System × List Out)
  | [] => some (s, [])
  | v :: vs =>
    match step M s v with
    | none => none
    | some (s', o) =>
      match run M s' vs with
      | none => none
      | some (s'', os) => some (s'', o :: os)

end Ulp.Sys
