/-
Stopping a process and running system calls inside it (src/task/core.c:681-733,
src/task/syscall.c).

What the kernel answers, and what the process does while it runs, is decided by an
environment: every `ptrace` and `waitpid` may fail, every transfer of memory may be
cut short, and between being continued and the next report the process may do
anything to its registers and memory.
-/
import Verif.Model.Mem
namespace Ulp.Ptrace

/-- The process as the tool sees it. -/
structure Tgt (R : Type) where
  regs : R
  mem : Mem

/-! ### Wait statuses: the macros of <sys/wait.h> that the code uses -/

def wifstopped (s : BitVec 32) : Bool := s &&& 0xff#32 == 0x7f#32

def wstopsig (s : BitVec 32) : BitVec 32 := (s &&& 0xff00#32) >>> 8

/-- `((signed char)((s & 0x7f) + 1) >> 1) > 0` -/
def wifsignaled (s : BitVec 32) : Bool :=
  decide (((((s &&& 0x7f#32) + 1#32).setWidth 8).sshiftRight 1).toInt > 0)

def wtermsig (s : BitVec 32) : BitVec 32 := s &&& 0x7f#32

def SIGTRAP : BitVec 32 := 5#32
def SIGSEGV : BitVec 32 := 11#32
def SIGSTOP : BitVec 32 := 19#32

/-- One turn of a loop that continues the process and waits for it.  `cont` and
`wait` are the results of `ptrace(PTRACE_CONT)` and `waitpid`: `none` is success,
`some e` failure with `-errno = e`.  `run` is what the process does after it is
continued with a signal (0 for none). -/
structure Ev (R : Type) where
  cont : Option Int
  run : BitVec 32 → Tgt R → Tgt R
  wait : Option Int
  status : BitVec 32

/-- The loop of `wait_for_stop` (src/task/syscall.c:97-125) from the point where
`status` is to be delivered.  The results: the process, what the function returns
(`none`: nothing more has happened, it is still waiting), and the signals the
process was continued with. -/
def waitLoop {R : Type} : List (Ev R) → BitVec 32 → Tgt R → Tgt R × Option Int × List (BitVec 32)
  | [], _, t => (t, none, [])
  | e :: es, status, t =>
    if e.cont ≠ none then (t, some (-1), [])
    else
      let t := e.run status t
      if e.wait ≠ none then (t, some (-1), [status])
      else if wifstopped e.status then
        if wstopsig e.status = SIGSTOP ∨ wstopsig e.status = SIGTRAP then (t, some 0, [status])
        else if wstopsig e.status = SIGSEGV then (t, some (-1), [status])
        else
          let r := waitLoop es (wstopsig e.status) t
          (r.1, r.2.1, status :: r.2.2)
      else
        let r := waitLoop es (if wifsignaled e.status then wtermsig e.status else 0#32) t
        (r.1, r.2.1, status :: r.2.2)

/-- `wait_for_stop` (src/task/syscall.c:92-127) -/
def waitForStop {R : Type} (evs : List (Ev R)) (t : Tgt R) : Tgt R × Option Int × List (BitVec 32) :=
  waitLoop evs 0#32 t

/-- The loop of `task_attach` (src/task/core.c:692-718).  An element is a turn that
waits and then continues. -/
def attachLoop {R : Type} : List (Ev R) → Tgt R → Tgt R × Option Int × List (BitVec 32)
  | [], t => (t, none, [])
  | e :: es, t =>
    match e.wait with
    | some err => (t, some err, [])
    | none =>
      if wifstopped e.status ∧ wstopsig e.status = SIGSTOP then (t, some 0, [])
      else
        let status :=
          if wifstopped e.status then (if wstopsig e.status = SIGTRAP then 0#32 else wstopsig e.status)
          else if wifsignaled e.status then wtermsig e.status
          else e.status
        match e.cont with
        | some err => (t, some err, [])
        | none =>
          let r := attachLoop es (e.run status t)
          (r.1, r.2.1, status :: r.2.2)

/-- `task_attach` (src/task/core.c:681-721); `att` is the result of
`ptrace(PTRACE_ATTACH)`. -/
def taskAttach {R : Type} (att : Option Int) (evs : List (Ev R)) (t : Tgt R) :
    Tgt R × Option Int × List (BitVec 32) :=
  match att with
  | some err => (t, some err, [])
  | none => attachLoop evs t

/-- `task_detach` (src/task/core.c:723-733) -/
def taskDetach (det : Option Int) : Int :=
  match det with
  | some err => err
  | none => 0

/-! ### The two machines -/

/-- What `task_syscall` uses of a machine. -/
structure Abi where
  Regs : Type
  /-- all bytes zero -/
  zero : Regs
  /-- `SYSCALL_REGS_PREPARE` -/
  prepare : Regs → BitVec 64 → (BitVec 64 × BitVec 64 × BitVec 64 × BitVec 64 × BitVec 64 × BitVec 64) → Regs
  /-- assignment to `SYSCALL_IP` -/
  setIp : Regs → Addr → Regs
  /-- `copy_regs(dst, src)` -/
  copy : Regs → Regs → Regs
  /-- `SYSCALL_RET` -/
  ret : Regs → BitVec 64
  /-- `SYSCALL_INSTR` -/
  code : List Byte

/-- `struct user_regs_struct` of x86_64 (<sys/user.h>) -/
structure X86Regs where
  r15 : BitVec 64
  r14 : BitVec 64
  r13 : BitVec 64
  r12 : BitVec 64
  rbp : BitVec 64
  rbx : BitVec 64
  r11 : BitVec 64
  r10 : BitVec 64
  r9 : BitVec 64
  r8 : BitVec 64
  rax : BitVec 64
  rcx : BitVec 64
  rdx : BitVec 64
  rsi : BitVec 64
  rdi : BitVec 64
  orig_rax : BitVec 64
  rip : BitVec 64
  cs : BitVec 64
  eflags : BitVec 64
  rsp : BitVec 64
  ss : BitVec 64
  fs_base : BitVec 64
  gs_base : BitVec 64
  ds : BitVec 64
  es : BitVec 64
  fs : BitVec 64
  gs : BitVec 64
  deriving DecidableEq

/-- `copy_regs` on x86_64 (src/task/syscall.c:44-59) -/
def x86Copy (dst src : X86Regs) : X86Regs :=
  { dst with
    r15 := src.r15, r14 := src.r14, r13 := src.r13, r12 := src.r12, rbp := src.rbp, rbx := src.rbx, r11 := src.r11,
    r10 := src.r10, r9 := src.r9, r8 := src.r8, rax := src.rax, rcx := src.rcx, rdx := src.rdx, rsi := src.rsi,
    rdi := src.rdi }

/-- src/arch/x86_64/regs.h:8-19, src/arch/x86_64/instruments.h:41-43 -/
def x86 : Abi where
  Regs := X86Regs
  zero := ⟨0, 0, 0, 0, 0, 0, 0, 0, 0, 0, 0, 0, 0, 0, 0, 0, 0, 0, 0, 0, 0, 0, 0, 0, 0, 0, 0⟩
  prepare := fun r nr a =>
    { r with rax := nr, rdi := a.1, rsi := a.2.1, rdx := a.2.2.1, r10 := a.2.2.2.1, r8 := a.2.2.2.2.1,
             r9 := a.2.2.2.2.2 }
  setIp := fun r ip => { r with rip := ip }
  copy := x86Copy
  ret := fun r => r.rax
  code := [0x0f#8, 0x05#8, 0xcc#8]

/-- `struct user_regs_struct` of aarch64 (<sys/user.h>); `regs` has 31 elements,
others are not looked at. -/
structure A64Regs where
  regs : Nat → BitVec 64
  sp : BitVec 64
  pc : BitVec 64
  pstate : BitVec 64

/-- `copy_regs` on aarch64 (src/task/syscall.c:60-80) -/
def a64Copy (dst src : A64Regs) : A64Regs :=
  { dst with
    regs := fun i =>
      if i ∈ [0, 1, 2, 3, 4, 5, 8, 29, 9, 10, 11, 12, 13, 14, 15, 16, 17, 18, 19, 20] then src.regs i
      else dst.regs i }

/-- src/arch/aarch64/regs.h:9-20, src/arch/aarch64/instruments.h:14-21 -/
def a64 : Abi where
  Regs := A64Regs
  zero := ⟨fun _ => 0, 0, 0, 0⟩
  prepare := fun r nr a =>
    { r with
      regs := fun i =>
        if i = 8 then nr else if i = 0 then a.1 else if i = 1 then a.2.1 else if i = 2 then a.2.2.1
        else if i = 3 then a.2.2.2.1 else if i = 4 then a.2.2.2.2.1 else if i = 5 then a.2.2.2.2.2 else r.regs i }
  setIp := fun r ip => { r with pc := ip }
  copy := a64Copy
  ret := fun r => r.regs 0
  code := [0x01#8, 0x00#8, 0x00#8, 0xd4#8, 0xa0#8, 0x00#8, 0x20#8, 0xd4#8]

/-! ### Running a system call in the process -/

/-- The environment of one `task_syscall`.  `getOld`, `set`, `get`, `setOld` are the
results of the four `ptrace` calls in order; `rd`, `wr`, `wrBack` how many bytes the
three transfers of code move (the code does not look at their results; a failure
moves none); `uninit` what the array `orig_code` holds before it is read into. -/
structure Env (R : Type) where
  getOld : Option Int
  rd : Nat
  wr : Nat
  set : Option Int
  evs : List (Ev R)
  get : Option Int
  setOld : Option Int
  wrBack : Nat
  uninit : List Byte

/-- The process after a system call, what `task_syscall` returns (`none`: it is
still waiting), and `*res` (`none`: not written). -/
structure SysRes (R : Type) where
  tgt : Tgt R
  ret : Option Int
  res : Option (BitVec 64)

/-- The label `poke_back` (src/task/syscall.c:237-239) -/
def pokeBack {R : Type} (env : Env R) (base : Addr) (orig : List Byte) (t : Tgt R) (ret : Int)
    (res : Option (BitVec 64)) : SysRes R :=
  ⟨{ t with mem := t.mem.write base (orig.take env.wrBack) }, some ret, res⟩

/-- `task_syscall` (src/task/syscall.c:129-240).  `base` is
`task->vma_root.libc_code->vm_start`; `nr` is an `int`. -/
def taskSyscall (abi : Abi) (base : Addr) (nr : BitVec 32)
    (args : BitVec 64 × BitVec 64 × BitVec 64 × BitVec 64 × BitVec 64 × BitVec 64) (env : Env abi.Regs)
    (t : Tgt abi.Regs) : SysRes abi.Regs :=
  let syscallRegs := abi.prepare abi.zero (nr.signExtend 64) args
  match env.getOld with
  | some err => ⟨t, some err, none⟩
  | none =>
    let oldRegs := t.regs
    let orig := (t.mem.read base abi.code.length).take env.rd ++ (env.uninit.take abi.code.length).drop env.rd
    let t := { t with mem := t.mem.write base (abi.code.take env.wr) }
    let regs := abi.copy (abi.setIp oldRegs base) syscallRegs
    match env.set with
    | some err => pokeBack env base orig t err none
    | none =>
      let t := { t with regs := regs }
      let w := waitForStop env.evs t
      match w.2.1 with
      | none => ⟨w.1, none, none⟩
      | some ret =>
        if ret < 0 then pokeBack env base orig w.1 ret none
        else
          match env.get with
          | some err => pokeBack env base orig w.1 err none
          | none =>
            let regs := w.1.regs
            match env.setOld with
            | some err => pokeBack env base orig w.1 err none
            | none => pokeBack env base orig { w.1 with regs := oldRegs } 0 (some (abi.ret regs))

/-! ### The calls built on it

The numbers are those of the x86_64 and aarch64 system call tables; `NR` collects
the ones used. -/

structure NR where
  mmap : BitVec 32
  munmap : BitVec 32
  mprotect : BitVec 32
  close : BitVec 32
  ftruncate : BitVec 32
  msync : BitVec 32
  prctl : BitVec 32

/-- `task_mmap` (src/task/syscall.c:242-254); the value returned, `none` if it is
still waiting. -/
def taskMmap (abi : Abi) (n : NR) (base : Addr) (addr len : BitVec 64) (prot flags fd : BitVec 32) (off : BitVec 64)
    (env : Env abi.Regs) (t : Tgt abi.Regs) : Tgt abi.Regs × Option (BitVec 64) :=
  let r := taskSyscall abi base n.mmap
    (addr, len, prot.signExtend 64, flags.signExtend 64, fd.signExtend 64, off) env t
  (r.tgt, r.ret.bind fun ret => if ret < 0 then some 0#64 else r.res)

/-- `task_munmap` (src/task/syscall.c:256-265); `int`, the low half of the result. -/
def taskMunmap (abi : Abi) (n : NR) (base : Addr) (addr size : BitVec 64) (env : Env abi.Regs) (t : Tgt abi.Regs) :
    Tgt abi.Regs × Option Int :=
  let r := taskSyscall abi base n.munmap (addr, size, 0, 0, 0, 0) env t
  (r.tgt, r.ret.bind fun ret => if ret < 0 then some (-1) else r.res.map fun v => (v.truncate 32).toInt)

/-- `task_mprotect` (src/task/syscall.c:267-278) -/
def taskMprotect (abi : Abi) (n : NR) (base : Addr) (addr len : BitVec 64) (prot : BitVec 32) (env : Env abi.Regs)
    (t : Tgt abi.Regs) : Tgt abi.Regs × Option Int :=
  let r := taskSyscall abi base n.mprotect (addr, len, prot.signExtend 64, 0, 0, 0) env t
  (r.tgt, r.ret.bind fun ret => if ret < 0 then some (-1) else r.res.map fun v => (v.truncate 32).toInt)

/-- `task_msync` (src/task/syscall.c:280-291) -/
def taskMsync (abi : Abi) (n : NR) (base : Addr) (addr len : BitVec 64) (flags : BitVec 32) (env : Env abi.Regs)
    (t : Tgt abi.Regs) : Tgt abi.Regs × Option Int :=
  let r := taskSyscall abi base n.msync (addr, len, flags.signExtend 64, 0, 0, 0) env t
  (r.tgt, r.ret.bind fun ret => if ret < 0 then some (-1) else r.res.map fun v => (v.truncate 32).toInt)

/-- `task_prctl` (src/task/syscall.c:416-428) -/
def taskPrctl (abi : Abi) (n : NR) (base : Addr) (option : BitVec 32) (a2 a3 a4 a5 : BitVec 64) (env : Env abi.Regs)
    (t : Tgt abi.Regs) : Tgt abi.Regs × Option Int :=
  let r := taskSyscall abi base n.prctl (option.signExtend 64, a2, a3, a4, a5, 0) env t
  (r.tgt, r.ret.bind fun ret => if ret < 0 then some 0 else r.res.map fun v => (v.truncate 32).toInt)

/-- `task_malloc` (src/task/syscall.c:303-313): `PROT_READ | PROT_WRITE` is 3,
`MAP_PRIVATE | MAP_ANONYMOUS` is 0x22, `MAP_FAILED` all ones. -/
def taskMalloc (abi : Abi) (n : NR) (base : Addr) (len : BitVec 64) (env : Env abi.Regs) (t : Tgt abi.Regs) :
    Tgt abi.Regs × Option (BitVec 64) :=
  let r := taskMmap abi n base 0#64 len 3#32 0x22#32 (-1#32) 0#64 env t
  (r.1, r.2.map fun a => if a = -1#64 then 0#64 else a)

/-- `__should_skip_remote_fd` (src/task/syscall.c:353-366) -/
def shouldSkipRemoteFd (fd : BitVec 32) : Bool := fd == 0#32 || fd == 1#32 || fd == 2#32

/-- `task_close` (src/task/syscall.c:368-376): `result | ret`, an `int`.  The first
`none` is "still waiting", the second the use of `result` without a value. -/
def taskClose (abi : Abi) (n : NR) (base : Addr) (fd : BitVec 32) (env : Env abi.Regs) (t : Tgt abi.Regs) :
    Tgt abi.Regs × Option (Option Int) :=
  if shouldSkipRemoteFd fd then (t, some (some (-22)))
  else
    let r := taskSyscall abi base n.close (fd.signExtend 64, 0, 0, 0, 0, 0) env t
    (r.tgt, r.ret.map fun ret => r.res.map fun v => ((v ||| BitVec.ofInt 64 ret).truncate 32).toInt)

/-- `task_ftruncate` (src/task/syscall.c:378-390) -/
def taskFtruncate (abi : Abi) (n : NR) (base : Addr) (fd : BitVec 32) (len : BitVec 64) (env : Env abi.Regs)
    (t : Tgt abi.Regs) : Tgt abi.Regs × Option Int :=
  if shouldSkipRemoteFd fd then (t, some (-22))
  else
    let r := taskSyscall abi base n.ftruncate (fd.signExtend 64, len, 0, 0, 0, 0) env t
    (r.tgt, r.ret.bind fun ret => if ret < 0 then some 0 else r.res.map fun v => (v.truncate 32).toInt)

end Ulp.Ptrace
