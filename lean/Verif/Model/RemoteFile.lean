/-
Opening a file and asking for its attributes in the process (src/task/syscall.c:293-350,
392-415), built on system calls that are made in the process.
-/
import Verif.Model.Ptrace
namespace Ulp.Ptrace

/-- The numbers of two more calls: `__NR_open` on x86_64, `__NR_openat` on aarch64
(src/task/syscall.c:333, 336), and `__NR_fstat` (src/task/syscall.c:402). -/
structure FileNR extends NR where
  open_ : BitVec 32
  fstat : BitVec 32

/-- What the machines differ in: whether `openat` with `AT_FDCWD`, which is -100, is used
(src/task/syscall.c:332-340). -/
def openArgs (at_ : Bool) (name : BitVec 64) (flags mode : BitVec 32) :
    BitVec 64 × BitVec 64 × BitVec 64 × BitVec 64 × BitVec 64 × BitVec 64 :=
  if at_ then ((-100#32).signExtend 64, name, flags.signExtend 64, mode.setWidth 64, 0, 0)
  else (name, flags.signExtend 64, mode.setWidth 64, 0, 0, 0)

/-- `task_free` (src/task/syscall.c:315-318) -/
def taskFree (abi : Abi) (n : NR) (base : Addr) (addr len : BitVec 64) (env : Env abi.Regs)
    (t : Tgt abi.Regs) : Tgt abi.Regs × Option Int :=
  taskMunmap abi n base addr len env t

/-- `task_msync_sync` (src/task/syscall.c:293-296), `MS_SYNC` is 4. -/
def taskMsyncSync (abi : Abi) (n : NR) (base : Addr) (addr len : BitVec 64) (env : Env abi.Regs)
    (t : Tgt abi.Regs) : Tgt abi.Regs × Option Int :=
  taskMsync abi n base addr len 4#32 env t

/-- `task_msync_async` (src/task/syscall.c:297-301), `MS_ASYNC` is 1. -/
def taskMsyncAsync (abi : Abi) (n : NR) (base : Addr) (addr len : BitVec 64) (env : Env abi.Regs)
    (t : Tgt abi.Regs) : Tgt abi.Regs × Option Int :=
  taskMsync abi n base addr len 1#32 env t

/-- The environments of the three calls, and how many bytes are copied to or from the
process in between (src/task/syscall.c:329-342, 399-412). -/
structure FileEnv (R : Type) where
  malloc : Env R
  moved : Nat
  call : Env R
  free : Env R

/-- `task_open` (src/task/syscall.c:320-345).  The first `none`: still waiting for the process;
the second: `result` is used without a value.  What `memcpy_to_task` returns is not looked
at. -/
def taskOpen (abi : Abi) (at_ : Bool) (n : FileNR) (base : Addr) (path : List Byte)
    (flags mode : BitVec 32) (env : FileEnv abi.Regs) (t : Tgt abi.Regs) :
    Tgt abi.Regs × Option (Option Int) :=
  let len := BitVec.ofNat 64 (path.length + 1)
  let a := taskMalloc abi n.toNR base len env.malloc t
  match a.2 with
  | none => (a.1, none)
  | some name =>
    let t := { a.1 with mem := a.1.mem.write name ((path ++ [0]).take env.moved) }
    let r := taskSyscall abi base n.open_ (openArgs at_ name flags mode) env.call t
    match r.ret with
    | none => (r.tgt, none)
    | some _ =>
      let f := taskFree abi n.toNR base name len env.free r.tgt
      (f.1, f.2.map fun _ => r.res.map fun v => (v.truncate 32).toInt)

/-- `task_open2` (src/task/syscall.c:347-350) -/
def taskOpen2 (abi : Abi) (at_ : Bool) (n : FileNR) (base : Addr) (path : List Byte)
    (flags : BitVec 32) (env : FileEnv abi.Regs) (t : Tgt abi.Regs) :
    Tgt abi.Regs × Option (Option Int) :=
  taskOpen abi at_ n base path flags 0#32 env t

/-- `sizeof(struct stat)` (src/task/syscall.c:399), on x86_64. -/
def STAT_SIZE : Nat := 144

/-- `task_fstat` (src/task/syscall.c:392-415): the process, what is returned, and `*statbuf`,
which was `old`.  What `memcpy_from_task` returns is only logged. -/
def taskFstat (abi : Abi) (n : FileNR) (base : Addr) (fd : BitVec 32) (old : List Byte)
    (env : FileEnv abi.Regs) (t : Tgt abi.Regs) : Tgt abi.Regs × Option (Int × List Byte) :=
  let len := BitVec.ofNat 64 STAT_SIZE
  let a := taskMalloc abi n.toNR base len env.malloc t
  match a.2 with
  | none => (a.1, none)
  | some buf =>
    let r := taskSyscall abi base n.fstat (fd.signExtend 64, buf, 0, 0, 0, 0) env.call a.1
    match r.ret with
    | none => (r.tgt, none)
    | some ret =>
      let st := (r.tgt.mem.read buf STAT_SIZE).take env.moved ++ old.drop env.moved
      let f := taskFree abi n.toNR base buf len env.free r.tgt
      (f.1, f.2.map fun _ => (ret, st))

end Ulp.Ptrace
