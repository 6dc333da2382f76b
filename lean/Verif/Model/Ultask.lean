/-
What `ultask` does to a process: map a file, change a protection, unmap, write a
jump, dump memory (src/ultask.c:595-722, 766-825, src/task/memcpy.c:113-174).

What the process and its kernel answer is decided by an environment: a function from
a state of the world and a request to the next state and the value that the wrapper
of src/task/syscall.c returns (an `int` is sign-extended).  `task_open` allocates,
copies the name, opens and frees; it is one request here.  The requests made are
kept in a log.
-/
import Verif.Model.Vma
import Verif.Model.Ptrace
import Verif.Model.JmpTable
namespace Ulp.Ultask
open Ulp.Vma (Vmas findVma)
open Ulp.Ptrace (shouldSkipRemoteFd)

/-- What the tool asks of the process. -/
inductive Req where
  | attach
  | detach
  | open (path : List Byte) (flags : BitVec 32)
  | ftruncate (fd : BitVec 32) (len : BitVec 64)
  | mmap (addr len : BitVec 64) (prot flags fd : BitVec 32) (off : BitVec 64)
  | mprotect (addr len : BitVec 64) (prot : BitVec 32)
  | munmap (addr len : BitVec 64)
  | close (fd : BitVec 32)
  deriving DecidableEq

/-- How the world answers. -/
structure Kern (W : Type) where
  ask : W → Req → W × BitVec 64

/-- The world and the requests so far. -/
structure Run (W : Type) where
  w : W
  log : List Req

def Run.ask {W : Type} (k : Kern W) (r : Run W) (q : Req) : Run W × BitVec 64 :=
  (⟨(k.ask r.w q).1, r.log ++ [q]⟩, (k.ask r.w q).2)

/-- An `int` result. -/
def int (v : BitVec 64) : Int := (v.setWidth 32).toInt

/-- The files the tool sees: whether a path exists, and the size of it if it can be
opened for reading. -/
structure Fs where
  exist : List Byte → Bool
  size : List Byte → Option Nat

/-- `fsize` (src/utils/file.c:22-40): the size as an `int`, or -1. -/
def fsize (fs : Fs) (path : List Byte) : BitVec 32 :=
  match fs.size path with
  | none => -1
  | some n => BitVec.ofNat 32 n

/-- `mprotect_a_region` (src/ultask.c:663-693).  `prot` is an `unsigned long` passed as
an `int`. -/
def mprotectRegion {W : Type} (k : Kern W) (vs : Vmas) (addr len prot : BitVec 64) (r : Run W) :
    Option (Run W × Int) :=
  if addr = 0 ∨ len = 0 then some (r, -22)
  else
    (findVma vs addr).bind fun v =>
      if v = 0 then some (r, -22)
      else
        (findVma vs (addr + len)).bind fun v =>
          if v = 0 then some (r, -22)
          else
            let a := r.ask k .attach
            if int a.2 ≠ 0 then some (a.1, int a.2)
            else
              let m := a.1.ask k (.mprotect addr len (prot.setWidth 32))
              let d := m.1.ask k .detach
              some (d.1, int m.2)

/-- `munmap_an_vma` (src/ultask.c:695-722); what `task_munmap` returns is not looked
at. -/
def munmapVma {W : Type} (k : Kern W) (fs : Fs) (vs : Vmas) (addr : BitVec 64) (r : Run W) :
    Option (Run W × Int) :=
  (findVma vs addr).bind fun v =>
    if v = 0 then some (r, -1)
    else
      let vma := vs.info v
      let size : BitVec 64 :=
        if fs.exist vma.name then (fsize fs vma.name).signExtend 64 else vma.stop - vma.start
      let a := r.ask k .attach
      if int a.2 ≠ 0 then some (a.1, int a.2)
      else
        let m := a.1.ask k (.munmap vma.start size)
        let d := m.1.ask k .detach
        some (d.1, 0)

/-- The check of the address in `mmap_a_file` (src/ultask.c:613-624): true if it is
refused. -/
def mapInUse (vs : Vmas) (addr len : BitVec 64) : Option Bool :=
  if addr = 0 then some false
  else
    (findVma vs addr).bind fun v =>
      if v ≠ 0 then some true
      else (findVma vs (addr + len)).map fun v => v ≠ 0

/-- src/ultask.c:642-648: `PROT_READ`, `PROT_WRITE` and `PROT_EXEC` are 1, 2 and 4. -/
def mapProt (ro noexec : Bool) : BitVec 32 :=
  let prot : BitVec 32 := 7
  let prot := if ro then prot &&& ~~~2#32 else prot
  if noexec then prot &&& ~~~4#32 else prot

/-- The label `close_ret` (src/ultask.c:656-660), without `update_task_vmas_ulp`, for which see `TaskRun.act`. -/
def closeRet {W : Type} (k : Kern W) (fd : BitVec 32) (ret : Int) (r : Run W) : Run W × Int :=
  let r := if shouldSkipRemoteFd fd then r else (r.ask k (.close fd)).1
  ((r.ask k .detach).1, ret)

/-- `task_ftruncate` (src/task/syscall.c:378-390): refused for the standard
descriptors. -/
def ftruncateReq {W : Type} (k : Kern W) (fd : BitVec 32) (len : BitVec 64) (r : Run W) : Run W × Int :=
  if shouldSkipRemoteFd fd then (r, -22)
  else
    let t := r.ask k (.ftruncate fd len)
    (t.1, int t.2)

/-- `mmap_a_file` (src/ultask.c:595-661): `O_RDWR` and `MAP_PRIVATE` are 2. -/
def mmapFile {W : Type} (k : Kern W) (fs : Fs) (vs : Vmas) (path : List Byte) (addr : BitVec 64) (ro noexec : Bool)
    (r : Run W) : Option (Run W × Int) :=
  let len : BitVec 64 := (fsize fs path).signExtend 64
  (mapInUse vs addr len).map fun used =>
    if used then (r, -22)
    else
      let a := r.ask k .attach
      if int a.2 ≠ 0 then (a.1, int a.2)
      else
        let o := a.1.ask k (.open path 2)
        let fd := o.2.setWidth 32
        if fd.toInt ≤ 0 then (o.1, -1)
        else
          let t := ftruncateReq k fd len o.1
          if t.2 ≠ 0 then closeRet k fd t.2 t.1
          else
            let m := t.1.ask k (.mmap addr len (mapProt ro noexec) 2 fd 0)
            closeRet k fd t.2 m.1

/-! ### Transfers of memory -/

/-- `memcpy_from_task` (src/task/memcpy.c:66-78) into a buffer holding `old`, where
`pread` moves `rd` bytes or fails: the buffer, and the `int` returned. -/
def memcpyFromTask (m : Mem) (addr : Addr) (old : List Byte) (rd : Option Nat) : List Byte × Int :=
  match rd with
  | none => (old, -1)
  | some n => (m.read addr n ++ old.drop n, (BitVec.ofNat 32 n).toInt)

/-- `memcpy_to_task` (src/task/memcpy.c:80-92), where `pwrite` moves `wr` bytes or
fails. -/
def memcpyToTask (m : Mem) (addr : Addr) (src : List Byte) (wr : Option Nat) : Mem × Int :=
  match wr with
  | none => (m, -1)
  | some n => (m.write addr (src.take n), (BitVec.ofNat 32 n).toInt)

/-- `run_jmp` (src/ultask.c:766-825) without what it prints: the memory and the value
returned.  -/
def runJmp (arch : Arch) (vs : Vmas) (m : Mem) (src dst : Addr) (rd wr : Option Nat) : Option (Mem × Int) :=
  if src = 0 ∨ dst = 0 then some (m, 0)
  else
    (findVma vs src).bind fun f =>
      (findVma vs dst).map fun t =>
        if f = 0 ∨ t = 0 then (m, -2)
        else
          let got := memcpyFromTask m src (List.replicate jmpEntrySize 0) rd
          if got.2 = -1 ∨ got.2 < jmpEntrySize then (m, -12)
          else
            let put := memcpyToTask m src (jmpEntry arch dst) wr
            if put.2 = -1 ∨ put.2 < jmpEntrySize then (put.1, -12) else (put.1, 0)

/-- What a dump meets: `file` is what the output file holds before (`none`: there is no
such file), `fd` the result of opening it, `errno` the value of `errno` when an error
is reported, `uninit` what `malloc` returns, `rd` and `wr` the bytes moved by `pread`
and `write`. -/
structure DumpEnv where
  file : Option (List Byte)
  fd : Int
  errno : Int
  uninit : List Byte
  rd : Option Nat
  wr : Option Nat

/-- The file after `write` of the first `n` bytes of `buf` at its beginning; the flags
are `O_CREAT | O_RDWR`, so what is behind stays. -/
def overwrite (file : Option (List Byte)) (buf : List Byte) (n : Nat) : List Byte :=
  buf.take n ++ match file with
    | none => []
    | some old => old.drop n

/-- `dump_task_addr_to_file` (src/task/memcpy.c:115-158) with an output file: what the
file holds after, and the value returned. -/
def dumpAddr (vs : Vmas) (m : Mem) (addr size : BitVec 64) (e : DumpEnv) :
    Option (Option (List Byte) × Int) :=
  (findVma vs addr).map fun v =>
    if v = 0 then (e.file, -2)
    else if e.fd ≤ 0 then (e.file, -e.errno)
    else
      let mem := (memcpyFromTask m addr e.uninit e.rd).1
      let done : Nat × BitVec 32 :=
        match e.wr with
        | none => (0, -1)
        | some n => (n, BitVec.ofNat 32 n)
      if done.2.signExtend 64 ≠ size then (some (overwrite e.file mem done.1), -e.errno)
      else (some (overwrite e.file mem done.1), 0)

/-- `dump_task_vma_to_file` (src/task/memcpy.c:160-174) -/
def dumpVma (vs : Vmas) (m : Mem) (addr : BitVec 64) (e : DumpEnv) : Option (Option (List Byte) × Int) :=
  (findVma vs addr).bind fun v =>
    if v = 0 then some (e.file, -2)
    else
      let vma := vs.info v
      dumpAddr vs m vma.start (vma.stop - vma.start) e

end Ulp.Ultask
