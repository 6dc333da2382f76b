/-
`ulpinfo` as it is typed, in a system with any number of processes: from the words to what is
printed.
-/
import Verif.Model.Shell
import Verif.Model.InfoCli
import Verif.Model.LiveUlp
namespace Ulp.InfoShell
open Sys (System)
open Cli (AOpt)
open Getopt (Case Word Prog)

/-- What a run meets, besides its command line, the files and the process: the answers to the calls
that read the file (`PFile.Env`), whether `ulpatch_init` and `open_task` succeed
(src/ulpinfo.c:210, 140-144), how long the mapping of a patch is that starts at an address, and how
many bytes of the process `pread` delivers from an address on (`none` for -1). -/
structure Circ where
  code : Nat → Int
  starts : Bool
  opens : Bool
  len : Addr → Nat
  gets : Addr → Nat → Option Nat

/-- What is printed to the standard output, apart from the fixed texts: nothing of a patch; what a
file says (src/ulpinfo.c:121-126); that the process has no patch (src/ulpinfo.c:146-149); the table
of the patches of the process (src/ulpinfo.c:151-187). -/
inductive Said where
  | nothing
  | file (x : PFile.Printed)
  | noPatch (p : BitVec 32)
  | table (p : BitVec 32) (ls : List Live.Line)
  deriving DecidableEq

/-- The options that the loop over `getopt_long` sees (src/ulpinfo.c:68-89); `none` is a null
pointer that is read, see `Shell.optsOf`. -/
def argsOf : List Case → Option (List AOpt)
  | [] => some []
  | .null :: _ => none
  | .opt o :: ks => (argsOf ks).map fun os => o :: os

/-- `__verbose` after one more option (src/init.c:133-136, src/args-common.c:72-75). -/
def setVerbose (v : BitVec 32) : AOpt → BitVec 32
  | .verbose n => n + 1
  | _ => v

/-- `is_verbose` behind the loop (src/init.c:123-126, src/args-common.c:111): `__verbose` is 0 at
first. -/
def isVerbose (os : List AOpt) : Bool := os.foldl setVerbose 0 ≠ 0

/-- `memcpy_from_task` (src/task/memcpy.c:65-78) on the memory of the process. -/
def pread (c : Circ) (w : Patch.World) : Live.Pread :=
  fun a n => (c.gets a n).map fun k => w.mem.read a (min k n)

/-- `show_task_patch_info` (src/ulpinfo.c:134-192): the status and what is printed; `none`:
undefined behaviour.  Simplification: `open_task` (src/task/task.c) looks at the mappings of
patches only, in the order of `maps`. -/
def showProc (c : Circ) (verbose : Bool) (p : BitVec 32) (w : Patch.World) : Option (Int × Said) :=
  if c.opens = false then some (-2, .nothing)
  else
    match Live.loadAll (pread c w) (w.maps.map fun m => (m.start, m.start + BitVec.ofNat 64 (c.len m.start))) ⟨[], 0, []⟩ with
    | .error _ => none
    | .ok t =>
      match t.ulps with
      | [] => some (0, .noPatch p)
      | u :: us =>
        match Live.showTask verbose 1 (u :: us) with
        | .error _ => none
        | .ok ls => some (0, .table p ls)

/-- What the command line is checked against (src/ulpinfo.c:103-106). -/
def infoEnv (s : System) : Cli.Env where
  page := 4096
  pidExists p := (s.procs p).isSome
  exist f := (s.files f).isSome
  regular _ := false
  size _ := 0
  cwd := []
  relocatable _ := false
  patchOk _ := false

/-- `ulpinfo` (src/ulpinfo.c:59-222) with these words behind its name: the system afterwards, the
status and what is printed; `none`: undefined behaviour. -/
def ulpinfo (s : System) (posix : Bool) (ws : List Word) (c : Circ) : System × Option (Int × Said) :=
  match argsOf (Prog.ulpinfo.cases posix ws) with
  | none => (s, none)
  | some os =>
    match (os.map Shell.plain).foldlM Cli.infoOpt {} with
    | .error n => (s, some (n, .nothing))
    | .ok g =>
      if c.starts = false then (s, some (1, .nothing))
      else
        match Cli.infoShow (infoEnv s) g with
        | .error n => (s, some (n, .nothing))
        | .ok (.file f) =>
          let r := PFile.showFile ⟨c.code, id⟩ f ⟨s.files, [], 0, 0⟩
          ({ s with files := r.2.files },
            match r.1 with
            | .error _ => none
            | .ok (n, none) => some (n, .nothing)
            | .ok (n, some x) => some (n, .file x))
        | .ok (.task p) =>
          match s.procs p with
          | none => (s, some (-2, .nothing))
          | some w => (s, showProc c (isVerbose os) p w)

end Ulp.InfoShell
