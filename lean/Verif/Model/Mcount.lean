/-
The stubs of the function tracer: `_ftrace_mcount` takes the place of `mcount`,
which the code that `gcc -pg` makes calls at the start of every function
(src/arch/x86_64/mcount.S, src/arch/aarch64/mcount.S).
-/
import Verif.Spec.X86Asm
import Verif.Spec.A64Asm
namespace Ulp.Mcount

namespace X86
open X86Asm Reg

/-- `_ftrace_mcount` (src/arch/x86_64/mcount.S:31-82). -/
def entry : List Insn :=
  [.subi 48 rsp,
   .store rdi 40 rsp, .store rsi 32 rsp, .store rdx 24 rsp, .store rcx 16 rsp, .store r8 8 rsp,
   .store r9 0 rsp,
   .load 48 rsp rsi,
   .lea 8 rbp rdi,
   .mov rsp rdx,
   .andi 0xfffffffffffffff0 rsp,
   .push rdx, .push rax,
   .call,
   .pop rax, .pop rdx,
   .mov rdx rsp,
   .load 0 rsp r9, .load 8 rsp r8, .load 16 rsp rcx, .load 24 rsp rdx, .load 32 rsp rsi,
   .load 40 rsp rdi,
   .addi 48 rsp,
   .ret]

/-- `_ftrace_mcount_return` (src/arch/x86_64/mcount.S:89-127). -/
def exit : List Insn :=
  [.subi 48 rsp,
   .store rdi 32 rsp, .storeX 0 16 rsp, .store rdx 8 rsp, .store rax 0 rsp,
   .mov rsp rdi,
   .andi 0xfffffffffffffff0 rsp,
   .subi 16 rsp,
   .store rdi 0 rsp,
   .call,
   .load 0 rsp rsp,
   .store rax 40 rsp,
   .load 0 rsp rax, .load 8 rsp rdx, .loadX 16 rsp 0, .load 32 rsp rdi,
   .addi 40 rsp,
   .ret]

/-- The shipped `mcount_entry` and `mcount_exit` without `ULPATCH_TEST`
(src/objects/ftrace/mcount.c:31-66), as they are in the tracing object: they return 0.  What a
compiler that does not optimise writes below the stack pointer is left out. -/
def shippedHook (c : Cpu) : Cpu := (c.set rsp (c.reg rsp + 8)).set rax 0

end X86

namespace A64
open A64Asm

/-- `_ftrace_mcount` (src/arch/aarch64/mcount.S:6-38). -/
def entry : List Insn :=
  [.stpPre 29 30 (-16), .movFromSp 29,
   .stpPre 8 18 (-16),
   .stpPre 6 7 (-16), .stpPre 4 5 (-16), .stpPre 2 3 (-16), .stpPre 0 1 (-16),
   .ldr 0 29, .addi 0 0 8, .mov 1 30, .movFromSp 2,
   .bl,
   .ldpPost 0 1 16, .ldpPost 2 3 16, .ldpPost 4 5 16, .ldpPost 6 7 16,
   .ldpPost 8 18 16,
   .ldpPost 29 30 16,
   .br 30]

/-- `_ftrace_mcount_return` (src/arch/aarch64/mcount.S:41-71). -/
def exit : List Insn :=
  [.stpPre 29 30 (-16),
   .stpPre 0 1 (-16), .strqPre 0 (-16),
   .stpPre 8 18 (-16),
   .addFromSp 0 32,
   .bl,
   .mov 16 0,
   .ldpPost 8 18 16,
   .ldrqPost 0 16, .ldpPost 0 1 16,
   .ldpPost 29 30 16,
   .br 16]

/-- The shipped `mcount_entry` and `mcount_exit` (src/objects/ftrace/mcount.c:31-66), as for
x86-64. -/
def shippedHook (c : Cpu) : Cpu := { c with x := fun r => if r = 0 then 0 else c.x r }

end A64
end Ulp.Mcount
