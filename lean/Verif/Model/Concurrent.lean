/-
Several ulpatch commands for one process at the same time: the stages of the commands of
`Model/Patch`, between which other commands run.  No lock is taken anywhere; but a process can be traced
by one tool only, so that what is done between `task_attach` and `task_detach` is one stage.
Simplification: the other stages are atomic too; each of them accesses the process with one system call.
-/
import Verif.Model.Patch
namespace Ulp.Patch

/-- How far a command has come. -/
inductive Stage where
  | start
  /-- after `open_task` -/
  | opened (s : Session)
  /-- after `create_mmap_vma_file` -/
  | mapped (s : Session) (hdr : Addr)
  /-- before `solve_patch_symbols` -/
  | checked (s : Session) (hdr : Addr)
  /-- the bytes to be overwritten are saved -/
  | saved (hdr : Addr) (info : Info)
  /-- the image is in the process -/
  | copied (hdr : Addr) (info : Info)
  /-- before `delete_mmap_vma_file` -/
  | failed (hdr : Addr) (r : Int)
  | ended (r : Int)
  | crashed

/-- The first part of `load_patch` (src/patch/patch.c:919-961). -/
def checkStage (w : World) (s : Session) (e : PatchEnv) (hdr : Addr) : World × Stage :=
  match e.setup with
  | some n => (w, .failed hdr (neg n))
  | none =>
    if s.ulps.any fun u => decide (u.bid = e.bid) then (w, .failed hdr EALREADY)
    else match e.rewrite with
    | some n => (w, .failed hdr (neg n))
    | none =>
      let w' := updMap w hdr fun m => { m with ready := true }
      match e.simplify with
      | some n => (w', .failed hdr (neg n))
      | none =>
        match e.apply with
        | some n => (w', .failed hdr (neg n))
        | none => (w', .checked s hdr)

/-- `solve_patch_symbols` (src/patch/patch.c:807-857) and the first part of `kick_target_process`
(src/patch/patch.c:859-879). -/
def saveStage (w : World) (s : Session) (e : PatchEnv) (hdr : Addr) : World × Stage :=
  match e.target with
  | none => (w, .failed hdr ENOENT)
  | some t =>
    match e.source with
    | none => (w, .failed hdr ENOENT)
    | some p =>
      let info : Info :=
        { id := s.maxId + 1, target := t, patchFn := p, virt := t, orig := e.info0.orig }
      let w := updMap w hdr fun m => { m with info := info }
      match e.preadN with
      | none => (w, .failed hdr ENOEXEC)
      | some k =>
        let orig := w.mem.read info.virt (min k 16) ++ info.orig.drop (min k 16)
        let w' := updMap w hdr fun m => { m with info := { info with orig := orig } }
        if k < jmpEntrySize then (w', .failed hdr ENOEXEC)
        else (w', .saved hdr { info with orig := orig })

/-- The copy of the image (src/patch/patch.c:886-892). -/
def copyStage (w : World) (e : PatchEnv) (hdr : Addr) (info : Info) : World × Stage :=
  let wt := writeTask w hdr (e.image info) (if w.mapped hdr then e.imageN else none)
  (wt.1, if wt.2 then .copied hdr info else .failed hdr ENOEXEC)

/-- The last stage of `kick_target_process` (src/patch/patch.c:893-917). -/
def entryStage (w : World) (e : PatchEnv) (hdr : Addr) (info : Info) : World × Stage :=
  let k := kickEntry w e info
  (k.1, if k.2 ≠ 0 then .failed hdr k.2 else .ended 0)

/-- The beginning of `init_patch` (src/patch/patch.c:976-1015). -/
def mapStage (w : World) (s : Session) (e : PatchEnv) : World × Stage :=
  if s.ftoProc = false then (w, .ended (-1))
  else match e.alloc with
  | some n => (w, .ended (neg n))
  | none =>
    match e.chown with
    | some n => (w, .ended (neg n))
    | none =>
      match createMmap w e with
      | (w', .error r) => (w', .ended r)
      | (w', .ok hdr) => (w', .mapped s hdr)

/-- Opening the process (src/task/core.c:452-576). -/
def openStage (rd : Mapping → ReadRes) (w : World) : Stage :=
  match openTask true rd w with
  | none => .crashed
  | some s => .opened s

/-- One stage of a command (src/ulpatch.c:189-245). -/
def stepCmd (c : Cmd) (w : World) (st : Stage) : World × Stage :=
  match c with
  | .patch rd e =>
    match st with
    | .start => (w, openStage rd w)
    | .opened s => mapStage w s e
    | .mapped s hdr => checkStage w s e hdr
    | .checked s hdr => saveStage w s e hdr
    | .saved hdr info => copyStage w e hdr info
    | .copied hdr info => entryStage w e hdr info
    | .failed hdr r => (deleteMmap w e hdr, .ended r)
    | .ended r => (w, .ended r)
    | .crashed => (w, .crashed)
  | .unpatch rd e =>
    match st with
    | .start => (w, openStage rd w)
    | .opened s => ((deletePatch w s e).1, .ended (deletePatch w s e).2)
    | st => (w, st)

/-- The process and how far each command has come. -/
structure Conc where
  world : World
  stage : Nat → Stage

/-- Commands run in the order of a schedule; number `i` does its next stage. -/
def Conc.run (cmds : Nat → Cmd) (c : Conc) : List Nat → Conc
  | [] => c
  | i :: l =>
    let r := stepCmd (cmds i) c.world (c.stage i)
    Conc.run cmds ⟨r.1, fun j => if j = i then r.2 else c.stage j⟩ l

end Ulp.Patch
