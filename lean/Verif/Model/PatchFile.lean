/-
The life of a patch file: `alloc_patch_file`, `release_load_info`, `init_patch`
(src/patch/patch.c), `ulpinfo --patch` (src/ulpinfo.c) and the file helpers they
use (src/utils/file.c), with the files they change and the memory, descriptors and
mappings they hold.

Every call to the system that can fail takes its answer from an environment, by the
number of such calls before it; 0 is success.  What is read of the file is left to
`Verif.Model.Load`.

Simplifications: a file is its path, and two paths name the same file only when they
are equal; the files are regular, nobody else changes them, `access` is accurate and
`unlink` of an existing file succeeds; memory is not exhausted; no call returns the
descriptor 0, which the code takes for a failure.
-/
import Verif.Model.Load
namespace Ulp.PFile
open Load (lit)

abbrev Path := List Byte

/-- What a process can hold: a descriptor, a piece of `malloc`ed memory, a mapping. -/
inductive Kind
  | fd | heap | map
  deriving DecidableEq, Repr

structure Res where
  kind : Kind
  id : Nat
  deriving DecidableEq, Repr

/-- The files by path, what the process holds, the next fresh name of a resource and the
number of calls made that can fail. -/
structure World where
  files : Path → Option (List Byte)
  live : List Res
  next : Nat
  clock : Nat

/-- The answers to the calls that can fail, and what `load_patch` makes of the file. -/
structure Env where
  code : Nat → Int
  linked : List Byte → List Byte

/-- How the program can go wrong. -/
inductive Crash
  /-- releasing what is not held -/
  | doubleFree
  /-- using a null pointer -/
  | null
  /-- using a mapping that is gone -/
  | dangling
  /-- reading outside of the file -/
  | fault
  /-- writing outside of the mapping -/
  | overflow
  deriving DecidableEq, Repr

/-- A piece of the program: it ends with a value or a crash, and the world is seen in
both cases. -/
def M (α : Type) : Type := World → Except Crash α × World

/-- No C code: the unit of `M`. -/
def M.pure {α : Type} (a : α) : M α := fun w => (.ok a, w)

/-- No C code: statements one after the other. -/
def M.bind {α β : Type} (x : M α) (f : α → M β) : M β := fun w =>
  match x w with
  | (.ok a, w') => f a w'
  | (.error c, w') => (.error c, w')

instance : Monad M where
  pure := M.pure
  bind := M.bind

/-- No C code: the program dies here. -/
def crash {α : Type} (c : Crash) : M α := fun w => (.error c, w)

/-- The answer to a call that can fail (the calls in src/utils/file.c:27-32, 290-291, 324-339
and src/patch/patch.c:976-1037). -/
def call (E : Env) : M Int := fun w => (.ok (E.code w.clock), { w with clock := w.clock + 1 })

/-- A new descriptor, piece of memory or mapping (src/utils/file.c:27, 290, 313-339,
src/patch/patch.c:201-202). -/
def alloc (k : Kind) : M Res := fun w =>
  (.ok ⟨k, w.next⟩, { w with live := w.live ++ [⟨k, w.next⟩], next := w.next + 1 })

/-- `close`, `free` or `munmap` (src/utils/file.c:37, 296, 348, 354-357,
src/patch/patch.c:126-147). -/
def free (r : Res) : M Unit := fun w =>
  if r ∈ w.live then (.ok (), { w with live := w.live.erase r }) else (.error .doubleFree, w)

/-- A file system after one file changed (`open` with `O_TRUNC`, `ftruncate`, stores to the
mapping and `unlink`: src/utils/file.c:79, 291, 324, 331). -/
def update (f : Path → Option (List Byte)) (p : Path) (c : Option (List Byte)) :
    Path → Option (List Byte) := fun q => if q = p then c else f q

/-- The contents of a file (src/utils/file.c:48, 291). -/
def readFile (p : Path) : M (Option (List Byte)) := fun w => (.ok (w.files p), w)

/-- Replaces the contents of a file (src/utils/file.c:79, 291, 324, 331). -/
def setFile (p : Path) (c : Option (List Byte)) : M Unit := fun w =>
  (.ok (), { w with files := update w.files p c })

/-- `fexist` (src/utils/file.c:42-49). -/
def fexist (p : Path) : M Bool := do
  let c ← readFile p
  pure c.isSome

/-- `fremove` (src/utils/file.c:64-82) of a regular file or of nothing. -/
def fremove (p : Path) : M Unit := do
  let e ← fexist p
  if e then setFile p none else pure ()

/-- `fsize` (src/utils/file.c:22-40): an `int`, -1 on failure; the descriptor stays open
when `fstat` fails. -/
def fsize (E : Env) (p : Path) : M (BitVec 32) := do
  let c ← call E
  let f ← readFile p
  match f with
  | none => pure (-1)
  | some bytes =>
    if c ≠ 0 then pure (-1)
    else do
      let fd ← alloc .fd
      let c ← call E
      if c ≠ 0 then pure (-1)
      else do
        free fd
        pure (BitVec.ofNat 32 bytes.length)

/-- `struct mmap_struct` (src/utils/file.h:17-27): the structure, its copy of the path, the
descriptor and the mapping, which is shared with the file at `path`. -/
structure Mmap where
  self : Res
  filepath : Res
  fd : Res
  map : Res
  path : Path
  deriving DecidableEq, Repr

/-- The end of `_mmap_file` (src/utils/file.c:339-349): `mmap`. -/
def mmapTail (E : Env) (p : Path) (self fp fd : Res) : M (Option Mmap) := do
  let c ← call E
  if c ≠ 0 then do
    free self
    pure none
  else do
    let m ← alloc .map
    pure (some ⟨self, fp, fd, m, p⟩)

/-- `fmmap_shmem_create` (src/utils/file.c:366-371), that is `_mmap_file`
(src/utils/file.c:301-350) with `O_CREAT | O_TRUNC`.  The failures leave the copy of the
path, the descriptor, or all.  A `mmap` of no bytes or of `(size_t)-1` fails. -/
def fmmapShmemCreate (E : Env) (p : Path) (size : BitVec 64) : M (Option Mmap) := do
  let self ← alloc .heap
  let fp ← alloc .heap
  let c ← call E
  if c ≠ 0 then do
    free self
    pure none
  else do
    let fd ← alloc .fd
    setFile p (some [])
    if size = 0 then do
      let _ ← fsize E p
      free self
      pure none
    else do
      let c ← call E
      if c ≠ 0 ∨ size.msb = true then pure none
      else do
        setFile p (some (List.replicate size.toNat 0))
        mmapTail E p self fp fd

/-- `fmunmap` (src/utils/file.c:352-359, 373-376). -/
def fmunmap (m : Mmap) : M Unit := do
  free m.map
  free m.fd
  free m.filepath
  free m.self

/-- `MIN(mem_len, fsize(file))` (src/utils/macros.h:23): `fsize` is called again when it
is the smaller one. -/
def minSize (E : Env) (memLen : BitVec 32) (p : Path) : M (BitVec 32) := do
  let s ← fsize E p
  if s.slt memLen then fsize E p else pure memLen

/-- `fmemcpy` (src/utils/file.c:285-299) into the mapping of `dst`.  `fopen` is not
checked; the stream stays open when `fread` does not read it all.  Simplification: a
`fread` that fails has copied nothing. -/
def fmemcpy (E : Env) (dst : Path) (memLen : BitVec 32) (p : Path) : M (BitVec 32) := do
  let size ← minSize E memLen p
  let c ← call E
  let f ← readFile p
  match f with
  | none => crash .null
  | some bytes =>
    if c ≠ 0 then crash .null
    else do
      let fd ← alloc .fd
      let fp ← alloc .heap
      let c ← call E
      let n := (size.signExtend 64).toNat
      if c = 0 ∧ 0 < n ∧ n ≤ bytes.length then do
        let d ← readFile dst
        match d with
        | none => crash .overflow
        | some old =>
          if old.length < n then crash .overflow
          else do
            setFile dst (some (bytes.take n ++ old.drop n))
            free fp
            free fd
            pure size
      else pure 0

/-- The part of `struct load_info` (src/patch/patch.h:30-69) that is held or points into
the mapping. -/
structure Info where
  ulpName : Option Res := none
  path : Option Res := none
  mmap : Option Mmap := none
  buildId : Option Res := none
  len : BitVec 64 := 0
  hdr : Option Mmap := none
  deriving DecidableEq, Repr

/-- `if (p) free(p)` (src/patch/patch.c:133-144). -/
def freeOpt (r : Option Res) : M Unit :=
  match r with
  | none => pure ()
  | some r => free r

/-- `if (info->patch.mmap) fmunmap(..)` (src/patch/patch.c:126-131). -/
def unmapOpt (m : Option Mmap) : M Unit :=
  match m with
  | none => pure ()
  | some m => fmunmap m

/-- `release_load_info` (src/patch/patch.c:126-147); `hdr` is left as it is. -/
def releaseLoadInfo (i : Info) : M Info := do
  unmapOpt i.mmap
  freeOpt i.path
  freeOpt i.buildId
  freeOpt i.ulpName
  pure { i with mmap := none, path := none, buildId := none, ulpName := none }

/-- What `info->hdr` points to (src/patch/patch.c:226). -/
def image (m : Mmap) : M (List Byte) := fun w =>
  if m.map ∈ w.live then
    match w.files m.path with
    | some c => (.ok c, w)
    | none => (.error .dangling, w)
  else (.error .dangling, w)

/-- The end of `alloc_patch_file` (src/patch/patch.c:226-242): the checks of the header.
Lines 234-235 take the error exit with `err == 0`. -/
def checkHeader (i : Info) (m : Mmap) : M (Int × Info) := do
  let img ← image m
  match Load.magicOk img with
  | none => crash .fault
  | some false => do
    let i ← releaseLoadInfo i
    pure (Load.ENOENT, i)
  | some true =>
    match Load.chkLen img with
    | none => crash .fault
    | some false => do
      let i ← releaseLoadInfo i
      pure (0, i)
    | some true => pure (0, i)

/-- `alloc_patch_file` (src/patch/patch.c:189-243) with `info` cleared before. -/
def allocPatchFile (E : Env) (from_ ulp : Path) : M (Int × Info) := do
  let e ← fexist from_
  if e = false then pure (Load.EEXIST, {})
  else do
    let name ← alloc .heap
    let path ← alloc .heap
    let size ← fsize E from_
    let len := size.signExtend 64
    if len < 64 then pure (Load.ENOEXEC, { ulpName := some name, path := some path, len := len })
    else do
      let mm ← fmmapShmemCreate E ulp len
      match mm with
      | none => pure (Load.ENOMEM, { ulpName := some name, path := some path, len := len })
      | some m => do
        let n ← fmemcpy E ulp (len.setWidth 32) from_
        if n.signExtend 64 ≠ len then
          pure (Load.EFAULT, { ulpName := some name, path := some path, mmap := some m, len := len })
        else
          checkHeader { ulpName := some name, path := some path, mmap := some m, len := len,
                        hdr := some m } m

/-- `setup_load_info` (src/patch/patch.c:435-570): the text of the Build ID is the only
memory it takes.  Whether it was taken before a failure is left to the environment. -/
def setup (E : Env) (i : Info) : M (Except Int (List Byte × Load.Info) × Info) :=
  match i.hdr with
  | none => crash .null
  | some m => do
    let img ← image m
    match Load.setupLoadInfo img with
    | none => crash .fault
    | some (.error e) => do
      let c ← call E
      if c ≠ 0 then do
        let b ← alloc .heap
        pure (.error e, { i with buildId := some b })
      else pure (.error e, i)
    | some (.ok li) =>
      match li.buildId with
      | none => pure (.ok (img, li), i)
      | some _ => do
        let b ← alloc .heap
        pure (.ok (img, li), { i with buildId := some b })

/-- The bytes of a C string up to its NUL, as `%s` prints it (src/patch/patch.c:28-47). -/
def untilNul : List Byte → Option (List Byte)
  | [] => none
  | b :: bs => if b = 0 then some [] else (untilNul bs).map (b :: ·)

/-- The C string at an offset of the image (src/patch/patch.c:28-47). -/
def cstr (img : List Byte) (off : BitVec 64) : Option (List Byte) := untilNul (img.drop off.toNat)

/-- What `ulpinfo --patch` prints, apart from the fixed texts. -/
structure Printed where
  file : Path
  srcFunc : List Byte
  dstFunc : List Byte
  author : List Byte
  license : List Byte
  info : Load.ULPInfo
  buildId : Option (List Byte)
  deriving DecidableEq

/-- `print_ulp_strtab`, `print_ulp_author`, `print_ulp_license` and `print_ulp_info`
(src/patch/patch.c:28-123) with the lines around them in src/ulpinfo.c:121-126; `none` is
a read outside of the image.  Simplification: the numbers and the time are not formatted
and the replaced code is not disassembled. -/
def render (file : Path) (img : List Byte) (i : Load.Info) : Option Printed :=
  match cstr img i.srcFunc, cstr img i.dstFunc, cstr img i.author, cstr img i.license,
    Load.readInfo img i.ulpInfo with
  | some s, some d, some a, some l, some r => some ⟨file, s, d, a, l, r, i.buildId⟩
  | _, _, _, _, _ => none

/-- `tmp_ulp` (src/ulpinfo.c:98). -/
def tempUlp : Path := lit "temp.ulp"

/-- `show_file_patch_info` (src/ulpinfo.c:94-132) after the command line gave `file`: the
return value and what was printed.  `cmd_exit(1)` ends the program with 1. -/
def showFile (E : Env) (file : Path) : M (Int × Option Printed) := do
  let e ← fexist file
  if e = false then pure (1, none)
  else do
    let r ← allocPatchFile E file tempUlp
    if r.1 ≠ 0 then pure (r.1, none)
    else do
      let s ← setup E r.2
      match s.1 with
      | .error e => pure (e, none)
      | .ok li =>
        match render file li.1 li.2 with
        | none => crash .fault
        | some out => do
          let _ ← releaseLoadInfo s.2
          fremove tempUlp
          pure (0, some out)

/-- `create_mmap_vma_file` (src/patch/patch.c:306-367) as far as it concerns this process:
`task_open` takes the length of the path (src/task/syscall.c:329). -/
def createMmap (E : Env) (i : Info) : M Int := do
  let c ← call E
  if c ≠ 0 then pure c
  else
    match i.path with
    | none => crash .null
    | some _ => call E

/-- `load_patch` (src/patch/patch.c:919-973): `setup_load_info`, then everything after it,
which writes the linked image to the mapping, and `release_load_info` in any case. -/
def loadPatch (E : Env) (ulp : Path) (i : Info) : M (Int × Info) := do
  let s ← setup E i
  match s.1 with
  | .error e => do
    let i ← releaseLoadInfo s.2
    pure (e, i)
  | .ok li => do
    let c ← call E
    setFile ulp (some (E.linked li.1))
    let i ← releaseLoadInfo s.2
    pure (c, i)

/-- The label `err` of `init_patch` (src/patch/patch.c:1028-1035). -/
def errExit (ulp : Path) (err : Int) : M Int := do
  let e ← fexist ulp
  if e then do
    fremove ulp
    pure err
  else pure err

/-- `init_patch` (src/patch/patch.c:976-1037) of the file `from_`, where `ulp` is the path
that `__make_pid_ulpname` made and `fto` says that the task was opened with `FTO_PROC`.
Simplification: the temporary file of `mkstemp` in the working directory, which is removed
at once (src/utils/file.c:277-282), is left out. -/
def initPatch (E : Env) (fto : Bool) (from_ ulp : Path) : M Int :=
  if fto = false then pure (-1)
  else do
    let r ← allocPatchFile E from_ ulp
    if r.1 ≠ 0 then errExit ulp r.1
    else do
      let c ← call E
      if c ≠ 0 then errExit ulp c
      else do
        let c ← createMmap E r.2
        if c ≠ 0 then do
          let _ ← releaseLoadInfo r.2
          errExit ulp c
        else do
          let l ← loadPatch E ulp r.2
          if l.1 ≠ 0 then do
            let _ ← releaseLoadInfo l.2
            errExit ulp l.1
          else pure 0

end Ulp.PFile
