/-
The threads of a process while ulpatch makes it execute a system call: `task_syscall`
(src/task/syscall.c:129-240) as single actions, between which the other threads run.  What is
returned, and failures, are in `Model/Ptrace`; here every step succeeds.
-/
import Verif.Model.Threads
namespace Ulp.Threads

/-- What a system call does to the memory and to the mappings of the process. -/
structure Effect where
  mem : Mem → Mem
  mapped : (Addr → Bool) → Addr → Bool

/-- An action of a thread or a store, or one that concerns the main thread, number 0. -/
inductive Op (I : Isa) where
  | act (a : Act)
  /-- `ptrace(PTRACE_SETREGS)` -/
  | regs (r : I.Regs)
  /-- The main thread is continued: it executes the system call and stops at the breakpoint behind
  it, with registers `r` (src/task/syscall.c:206-212). -/
  | call (e : Effect) (r : I.Regs)

/-- The process with other registers of the main thread. -/
def Proc.withRegs {I : Isa} (p : Proc I) (r : I.Regs) : Proc I :=
  { p with regs := fun j => if j = 0 then r else p.regs j }

def Proc.op {I : Isa} (p : Proc I) : Op I → Option (Proc I)
  | .act a => p.act a
  | .regs r => some (p.withRegs r)
  | .call e r => some { p.withRegs r with mem := e.mem p.mem, mapped := e.mapped p.mapped }

/-- One after the other; `none` if the process is killed. -/
def Proc.ops {I : Isa} (p : Proc I) : List (Op I) → Option (Proc I)
  | [] => some p
  | a :: l =>
    match p.op a with
    | none => none
    | some q => q.ops l

/-- One system call: the registers for it, what it does, and the registers after it. -/
structure Call (I : Isa) where
  new : I.Regs
  effect : Effect
  after : I.Regs

/-- `task_syscall` (src/task/syscall.c:129-240): the code of the call is written at `base`
(lines 190-196), the registers are set (198-204), the thread is continued (206-212), the registers
(221-227) and the code (237-239) are put back.  `orig` and `old` are what was read before (lines
180-188); the marks have no effect. -/
def callOps {I : Isa} (base : Addr) (code orig : List Byte) (old : I.Regs) (c : Call I) : List (Op I) :=
  [.act (.mark .changing)] ++ (copyTo base code).map .act ++
    [.regs c.new, .call c.effect c.after, .regs old] ++
    (copyTo base orig).map .act ++ [.act (.mark .original)]

/-- Is this an action of ulpatch? -/
def Op.isTool {I : Isa} : Op I → Bool
  | .act (.run _) => false
  | _ => true

end Ulp.Threads
