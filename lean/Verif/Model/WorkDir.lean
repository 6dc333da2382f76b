/-
The directory the tools keep for a process, `ULP_PROC_ROOT_DIR/PID` with the file
`comm` and the directory `map_files`, over a history of sessions of several tools
(src/task/core.c:533-570, 582-628, src/patch/patch.c:976-1091).

One process identifier; `ULP_PROC_ROOT_DIR` exists (src/init.c:80-92).  System calls
on the directory succeed when they can; full disks and missing permissions are left
out, except that opening may fail at any point.
-/
import Verif.Model.Mem
namespace Ulp.WorkDir

abbrev Name := List Byte
abbrev Content := List Byte

/-- `ULP_PROC_ROOT_DIR/PID`: whether it exists, the file `comm`, and the files in
`map_files` if that exists. -/
structure Dir where
  pid : Bool
  comm : Option Content
  maps : Option (List (Name × Content))
  deriving DecidableEq

def Dir.none : Dir := ⟨false, .none, .none⟩

/-- Create or overwrite a file (`O_CREAT | O_TRUNC`). -/
def writeFile (n : Name) (c : Content) (l : List (Name × Content)) : List (Name × Content) :=
  (n, c) :: l.filter (fun f => f.1 ≠ n)

/-- Remove a file, if it is there. -/
def removeFile (n : Name) (l : List (Name × Content)) : List (Name × Content) :=
  l.filter (fun f => f.1 ≠ n)

/-- `mkdirat`, `fopen(.., "w")` of `comm` (src/task/core.c:539-551). -/
def openPid (comm : Content) (d : Dir) : Dir := { d with pid := true, comm := some comm }

/-- `mkdirat` of `map_files` (src/task/core.c:554-561); EEXIST is no error. -/
def openMaps (d : Dir) : Dir := { d with maps := some (match d.maps with | some l => l | none => []) }

/-- `__clean_task_proc` (src/task/core.c:583-612): `unlink` and two times `rmdir`, which
fails on a directory that is not empty. -/
def cleanProc (d : Dir) : Dir :=
  let d := { d with comm := none }
  let d := if d.maps = some [] then { d with maps := none } else d
  if d.maps = none then { d with pid := false } else d

/-- The process with its directory: the patches mapped in it (name and contents of the
file behind the mapping) and, for each open session, the patch mappings it knows of. -/
structure World where
  dir : Dir
  comm : Content
  live : List (Name × Content)
  known : Nat → Option (List Name)

def World.session (w : World) (s : Nat) (k : Option (List Name)) : World :=
  { w with known := fun i => if i = s then k else w.known i }

/-- `__check_and_free_task_proc` (src/task/core.c:614-628): clean up if none of the
mappings the session knows of is a patch. -/
def checkAndFree (k : List Name) (d : Dir) : Dir := if k.length = 0 then cleanProc d else d

/-- How far `open_task` came before it failed: before it read the mappings, after it, or
after making `ULP_PROC_ROOT_DIR/PID`. -/
inductive Stage
  | unread | read | mkdir
  deriving DecidableEq

/-- What can happen. -/
inductive Op
  /-- session `s` opens the process with `FTO_PROC` (src/task/core.c:452-570) -/
  | open (s : Nat)
  /-- it tries to and fails: `close_task` is called (src/task/core.c:572) -/
  | openFail (at_ : Stage)
  /-- `close_task` (src/task/core.c:630-679) -/
  | close (s : Nat)
  /-- `init_patch` (src/patch/patch.c:976-1037) with the temporary name `n` and contents
  `c` of the file in the end -/
  | patch (s : Nat) (n : Name) (c : Content)
  /-- the same, but failing after the file was made; with the mapping removed, which the
  session goes on to know of -/
  | patchFail (s : Nat) (n : Name) (c : Content) (mapped : Bool)
  /-- `delete_patch` (src/patch/patch.c:1039-1091) of the mapping `n` the session knows -/
  | unpatch (s : Nat) (n : Name)
  deriving DecidableEq

/-- One step, and whether it succeeds.  Operations of a session that is not open do
nothing.  `update_task_vmas_ulp` at the end of `create_mmap_vma_file`
(src/patch/patch.c:360) makes the session know all mappings there are then, and it
forgets none. -/
def step (w : World) : Op → World × Bool
  | .open s =>
    (({ w with dir := openMaps (openPid w.comm w.dir) } : World).session s (some (w.live.map (·.1))), true)
  | .openFail .unread => ({ w with dir := checkAndFree [] w.dir }, false)
  | .openFail .read => ({ w with dir := checkAndFree (w.live.map (·.1)) w.dir }, false)
  | .openFail .mkdir => ({ w with dir := checkAndFree (w.live.map (·.1)) (openPid w.comm w.dir) }, false)
  | .close s =>
    match w.known s with
    | none => (w, false)
    | some k => (({ w with dir := checkAndFree k w.dir } : World).session s none, true)
  | .patch s n c =>
    match w.known s with
    | none => (w, false)
    | some k =>
      match w.dir.maps with
      | none => (w, false)
      | some l =>
        (({ w with dir := { w.dir with maps := some (writeFile n c l) },
                   live := w.live ++ [(n, c)] } : World).session s
          (some (k ++ (w.live.map (·.1) ++ [n]).filter (fun x => decide (x ∉ k)))), true)
  | .patchFail s n c mapped =>
    match w.known s with
    | none => (w, false)
    | some k =>
      match w.dir.maps with
      | none => (w, false)
      | some l =>
        (({ w with dir := { w.dir with maps := some (removeFile n (writeFile n c l)) } } : World).session s
          (some (if mapped then k ++ (w.live.map (·.1) ++ [n]).filter (fun x => decide (x ∉ k)) else k)), false)
  | .unpatch s n =>
    match w.known s with
    | none => (w, false)
    | some k =>
      if n ∈ k then
        ({ w with dir := { w.dir with maps := w.dir.maps.map (removeFile n) },
                  live := w.live.filter (fun f => f.1 ≠ n) }, true)
      else (w, false)

/-- A history. -/
def run (w : World) : List Op → World
  | [] => w
  | o :: l => run (step w o).1 l

/-- A process no tool has worked on. -/
def World.fresh (comm : Content) : World := ⟨Dir.none, comm, [], fun _ => none⟩

end Ulp.WorkDir
