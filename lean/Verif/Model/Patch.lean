/-
Applying and removing patches: `init_patch`, `load_patch`,
`kick_target_process`, `delete_patch` and what a tool invocation learns about
the live patches when it opens the process.

System calls are decided by an environment: each call may succeed, fail, or
(for reads and writes of process memory) transfer only part of the bytes.
-/
import Verif.Model.JmpTable
namespace Ulp.Patch

/-- `struct ulpatch_info` (src/patch/meta.h:112-132), the fields that matter
here.  `orig` is `orig_code[2]`, 16 bytes. -/
structure Info where
  id : BitVec 32
  target : Addr
  patchFn : Addr
  virt : Addr
  orig : List Byte
  deriving DecidableEq

/-- A mapping in the target process whose file name makes it a `VMA_ULPATCH`
(src/task/vma.c:207-257), with the metadata its ELF image currently carries.
The image is a `MAP_SHARED` file both in the tool and in the target
(src/patch/patch.c:213, 349), so metadata written by the tool is immediately
the metadata of the mapping.  `ready`: the section headers in the image have
been rewritten to target addresses; without that the loader of the next
session follows wild pointers (src/patch/patch.c:274). Simplification: a
redirect entry is never written over the metadata of another patch. -/
structure Mapping where
  start : Addr
  len : Nat
  bid : String
  ready : Bool
  info : Info
  deriving DecidableEq

/-- The target process as seen by the tool.  `arch` is the machine, `mem` is the whole address space,
`maps` the live patch mappings in address order, `attached` whether the tool
currently traces (and so keeps stopped) the process. -/
structure World where
  arch : Arch
  mem : Mem
  maps : List Mapping
  attached : Bool

/-- What `open_task` found: the list `ulp_root.list`, `ulp_root.max_id`
(src/task/patch.h) and whether the session has `FTO_PROC`. -/
structure Session where
  ulps : List Mapping
  maxId : BitVec 32
  ftoProc : Bool

/-- Outcome of reading one patch mapping from the target while opening it. -/
inductive ReadRes where
  /-- the ELF header could not be read: the mapping is skipped
  (src/task/patch.c:98-104) -/
  | noEhdr
  /-- the header could be read, the body could not: `alloc_ulp` frees the
  record, `load_ulp_info_from_vma` refuses, and `info.ulp_info` is used as NULL
  (src/task/patch.c:113-119) -/
  | noBody
  | ok
  deriving DecidableEq

/-- `vma_load_ulp` for every patch mapping in address order
(src/task/patch.c:87-122, called from src/task/core.c:140 whose result
src/task/core.c:518-524 ignores).  `none`: the tool dereferences a bad
pointer. -/
def loadUlps (rd : Mapping → ReadRes) : List Mapping → Session → Option Session
  | [], s => some s
  | m :: ms, s =>
    match rd m with
    | .noEhdr => loadUlps rd ms s
    | .noBody => none
    | .ok =>
      if m.ready then
        loadUlps rd ms { s with
          ulps := s.ulps ++ [m]
          maxId := if s.maxId < m.info.id then m.info.id else s.maxId }
      else none

/-- The part of `open_task` (src/task/core.c:452-576) that concerns patches:
`init_vma_ulp_root` then `loadUlps`. -/
def openTask (ftoProc : Bool) (rd : Mapping → ReadRes) (w : World) : Option Session :=
  loadUlps rd w.maps { ulps := [], maxId := 0, ftoProc := ftoProc }

/-- Result of `task_attach` (src/task/core.c:681-721): 0, or `-errno`; in the
error case the process may have been left traced (the `waitpid`/`PTRACE_CONT`
failures at lines 694-697 and 713-716 return without detaching). -/
inductive AttachRes where
  | ok
  | fail (errno : Nat) (left : Bool)

/-- Return value for an `errno` number (`errno + 1` so that it is non-zero). -/
def neg (errno : Nat) : Int := -((errno : Int) + 1)

def ENOENT : Int := -2
def ENOEXEC : Int := -8
def EFAULT : Int := -14
def EALREADY : Int := -114

/-- `task_attach` (src/task/core.c:681-721). -/
def attach (a : AttachRes) (w : World) : World × Int :=
  match a with
  | .ok => ({ w with attached := true }, 0)
  | .fail e left => ({ w with attached := w.attached || left }, neg e)

/-- `task_detach` (src/task/core.c:723-733); its result is never used. -/
def detach (w : World) : World := { w with attached := false }

/-- Outcome of `task_mmap` for the patch file (src/patch/patch.c:349-354). -/
inductive MmapRes where
  /-- a new mapping at `start` -/
  | created (start : Addr)
  /-- the remote call returned `-errno`; the caller takes it for an address
  (only 0 is checked, src/patch/patch.c:350) -/
  | errno (v : Addr)
  /-- injecting the call failed (`task_mmap` returns 0); the call may
  nevertheless have been executed -/
  | inject (left : Option Addr)

/-- Outcome of `task_munmap` (src/task/syscall.c:256-265). -/
inductive MunmapRes where
  | done
  /-- non-zero result; `gone` tells whether the range is unmapped anyway
  (the call ran, the injection failed afterwards) -/
  | failed (gone : Bool)

/-- Everything outside the tool's control during `init_patch`, and the facts
about the patch object. `none` error = success. A byte count is `none` for -1. -/
structure PatchEnv where
  /-- `alloc_patch_file` -/
  alloc : Option Nat
  chown : Option Nat
  attach1 : AttachRes
  /-- `task_open` result -/
  fd : Int
  /-- `task_ftruncate` result -/
  ftruncate : Int
  mmap : MmapRes
  /-- object size -/
  len : Nat
  /-- metadata as found in the object file -/
  info0 : Info
  /-- Build ID text of the object -/
  bid : String
  /-- `setup_load_info`, `rewrite_section_headers`, `simplify_symbols`,
  `apply_relocations` -/
  setup : Option Nat
  rewrite : Option Nat
  simplify : Option Nat
  apply : Option Nat
  /-- address of the function to replace in the target, if found -/
  target : Option Addr
  /-- address of the replacement inside the mapping, if found -/
  source : Option Addr
  /-- the relocated image for given metadata -/
  image : Info → List Byte
  preadN : Option Nat
  imageN : Option Nat
  attach2 : AttachRes
  entryN : Option Nat
  attach3 : AttachRes
  munmap3 : MunmapRes

/-- Change the metadata of the mapping at `start`. -/
def updMap (w : World) (start : Addr) (f : Mapping → Mapping) : World :=
  { w with maps := w.maps.map fun m => if m.start = start then f m else m }

/-- Insert a mapping, keeping `/proc/PID/maps` in address order. -/
def insertMap (m : Mapping) : List Mapping → List Mapping
  | [] => [m]
  | a :: l => if m.start < a.start then m :: a :: l else a :: insertMap m l

/-- Remove the mapping at `start`. -/
def removeMap (w : World) (start : Addr) : World :=
  { w with maps := w.maps.filter fun m => m.start ≠ start }

/-- `memcpy_to_task` (src/task/memcpy.c:80-92): `pwrite` transfers the first
`k` bytes. Returns whether the caller's test `n == -1 || n < size` passes. -/
def writeTask (w : World) (a : Addr) (bs : List Byte) (n : Option Nat) : World × Bool :=
  match n with
  | none => (w, false)
  | some k => ({ w with mem := w.mem.write a (bs.take k) }, decide (bs.length ≤ k))

/-- `create_mmap_vma_file` (src/patch/patch.c:306-367).  The result carries the
address stored in `info->target_hdr`.  A failing `task_open` returns without
`task_detach` (src/patch/patch.c:321-324). -/
def createMmap (w : World) (e : PatchEnv) : World × Except Int Addr :=
  match e.attach1 with
  | .fail n left => ((attach (.fail n left) w).1, .error (neg n))
  | .ok =>
    let w' := (attach .ok w).1
    if e.fd ≤ 0 then (w', .error (-1))
    else if e.ftruncate ≠ 0 then (detach w', .error EFAULT)
    else
      let new (a : Addr) : Mapping :=
        { start := a, len := e.len, bid := e.bid, ready := false, info := e.info0 }
      let mk (a : Addr) : World := { w' with maps := insertMap (new a) w'.maps }
      match e.mmap with
      | .created a => (detach (mk a), .ok a)
      | .errno v => (detach w', .ok v)
      | .inject none => (detach w', .error EFAULT)
      | .inject (some a) => (detach (mk a), .error EFAULT)

/-- Is there a live patch mapping at `a`? -/
def World.mapped (w : World) (a : Addr) : Bool := w.maps.any fun m => decide (m.start = a)

/-- Last stage of `kick_target_process` (src/patch/patch.c:893-911): attach,
write the 16-byte entry over the function, detach (also after a short write). -/
def kickEntry (w : World) (e : PatchEnv) (info : Info) : World × Int :=
  match e.attach2 with
  | .fail n left => (attach (.fail n left) w).1 |> fun w => (w, neg n)
  | .ok =>
    let wt := writeTask (attach .ok w).1 info.virt (jmpEntry w.arch info.patchFn) e.entryN
    (detach wt.1, if wt.2 then 0 else ENOEXEC)

/-- Middle stage (src/patch/patch.c:886-892): copy the image to the mapping.
The write fails when nothing is mapped there (the `-errno` taken for an
address by `create_mmap_vma_file`). -/
def kickImage (w : World) (e : PatchEnv) (hdr : Addr) (info : Info) : World × Int :=
  let wt := writeTask w hdr (e.image info) (if w.mapped hdr then e.imageN else none)
  if wt.2 then kickEntry wt.1 e info else (wt.1, ENOEXEC)

/-- `kick_target_process` (src/patch/patch.c:859-917): save the 16 bytes that
will be overwritten into `orig_code`, then the two stages above. -/
def kick (w : World) (e : PatchEnv) (hdr : Addr) (info : Info) : World × Int :=
  match e.preadN with
  | none => (w, ENOEXEC)
  | some k =>
    let orig := w.mem.read info.virt (min k 16) ++ info.orig.drop (min k 16)
    let w' := updMap w hdr fun m => { m with info := { info with orig := orig } }
    if k < jmpEntrySize then (w', ENOEXEC)
    else kickImage w' e hdr { info with orig := orig }

/-- `solve_patch_symbols` then `kick_target_process`
(src/patch/patch.c:807-857, 963-967). -/
def solveAndKick (w : World) (s : Session) (e : PatchEnv) (hdr : Addr) : World × Session × Int :=
  match e.target with
  | none => (w, s, ENOENT)
  | some t =>
    match e.source with
    | none => (w, s, ENOENT)
    | some p =>
      let info : Info :=
        { id := s.maxId + 1, target := t, patchFn := p, virt := t, orig := e.info0.orig }
      let k := kick (updMap w hdr fun m => { m with info := info }) e hdr info
      (k.1, { s with maxId := s.maxId + 1 }, k.2)

/-- `load_patch` (src/patch/patch.c:919-973). -/
def loadPatch (w : World) (s : Session) (e : PatchEnv) (hdr : Addr) : World × Session × Int :=
  match e.setup with
  | some n => (w, s, neg n)
  | none =>
    if s.ulps.any fun u => decide (u.bid = e.bid) then (w, s, EALREADY)
    else match e.rewrite with
    | some n => (w, s, neg n)
    | none =>
      let w' := updMap w hdr fun m => { m with ready := true }
      match e.simplify with
      | some n => (w', s, neg n)
      | none =>
        match e.apply with
        | some n => (w', s, neg n)
        | none => solveAndKick w' s e hdr

/-- `delete_mmap_vma_file` (src/patch/patch.c:369-380). -/
def deleteMmap (w : World) (e : PatchEnv) (hdr : Addr) : World :=
  match e.attach3 with
  | .fail n left => (attach (.fail n left) w).1
  | .ok =>
    let w' := (attach .ok w).1
    match e.munmap3 with
    | .done => detach (removeMap w' hdr)
    | .failed gone => detach (if gone then removeMap w' hdr else w')

/-- `init_patch` (src/patch/patch.c:976-1037).  Files under the tool's own
directory are not modelled. -/
def initPatch (w : World) (s : Session) (e : PatchEnv) : World × Session × Int :=
  if s.ftoProc = false then (w, s, -1)
  else match e.alloc with
  | some n => (w, s, neg n)
  | none =>
    match e.chown with
    | some n => (w, s, neg n)
    | none =>
      match createMmap w e with
      | (w', .error r) => (w', s, r)
      | (w', .ok hdr) =>
        let l := loadPatch w' s e hdr
        if l.2.2 ≠ 0 then (deleteMmap l.1 e hdr, l.2.1, l.2.2) else (l.1, l.2.1, 0)

/-- What the environment decides during `delete_patch`. -/
structure DeleteEnv where
  attach : AttachRes
  writeN : Option Nat
  munmap : MunmapRes

/-- `delete_patch` (src/patch/patch.c:1039-1091). -/
def deletePatch (w : World) (s : Session) (e : DeleteEnv) : World × Int :=
  match s.ulps.find? fun u => decide (s.maxId = u.info.id) with
  | none => (w, ENOENT)
  | some u =>
    match e.attach with
    | .fail n left => ((attach (.fail n left) w).1, neg n)
    | .ok =>
      let wt := writeTask (attach .ok w).1 u.info.virt u.info.orig e.writeN
      if wt.2 then
        match e.munmap with
        | .done => (detach (removeMap wt.1 u.start), 0)
        | .failed gone =>
            (detach (if gone then removeMap wt.1 u.start else wt.1), ENOEXEC)
      else (detach wt.1, ENOEXEC)

/-- One invocation of the command-line tool (src/ulpatch.c:189-245,
`ulpatch -p PID --patch F` or `--unpatch`): open the process, do one thing. -/
inductive Cmd where
  | patch (rd : Mapping → ReadRes) (e : PatchEnv)
  | unpatch (rd : Mapping → ReadRes) (e : DeleteEnv)

/-- New world and exit code; `none` when the tool crashes. -/
def runCmd (w : World) : Cmd → Option (World × Int)
  | .patch rd e => (openTask true rd w).map fun s =>
      ((initPatch w s e).1, (initPatch w s e).2.2)
  | .unpatch rd e => (openTask true rd w).map fun s => deletePatch w s e

/-- A history of invocations; `none` when one of them crashes. -/
def runHist (w : World) : List Cmd → Option World
  | [] => some w
  | c :: cs => (runCmd w c).bind fun r => runHist r.1 cs

/-- A tracing session (src/ulftrace.c:186-201): apply the tracing patch, then
remove "the last patch", in one open session and whatever the first step
returned. -/
def traceSession (w : World) (s : Session) (e : PatchEnv) (d : DeleteEnv) :
    World × Int × Int :=
  let i := initPatch w s e
  let x := deletePatch i.1 i.2.1 d
  (x.1, i.2.2, x.2)

end Ulp.Patch
