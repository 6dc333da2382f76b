/-
Specification: the A64 instructions the tracing stubs use, in assembler form, and
what the calling convention promises about a called function.

From the Arm ARM C6.2 and the AAPCS64; independent of the ulpatch sources.
-/
import Verif.Spec.X86Asm
namespace Ulp.A64Asm
open X86Asm (ldq stq)

/-- General registers, stack pointer, vector registers, memory. -/
structure Cpu where
  x : Fin 31 → BitVec 64
  sp : BitVec 64
  q : Fin 32 → BitVec 128
  mem : Mem

def Cpu.set (s : Cpu) (r : Fin 31) (v : BitVec 64) : Cpu :=
  { s with x := fun i => if i = r then v else s.x i }

inductive Insn where
  /-- `stp xa, xb, [sp, #n]!` -/
  | stpPre (a b : Fin 31) (n : BitVec 64)
  /-- `ldp xa, xb, [sp], #n` -/
  | ldpPost (a b : Fin 31) (n : BitVec 64)
  /-- `str qa, [sp, #n]!` -/
  | strqPre (a : Fin 32) (n : BitVec 64)
  /-- `ldr qa, [sp], #n` -/
  | ldrqPost (a : Fin 32) (n : BitVec 64)
  /-- `mov xd, xs` -/
  | mov (d s : Fin 31)
  /-- `mov xd, sp` -/
  | movFromSp (d : Fin 31)
  /-- `ldr xd, [xb]` -/
  | ldr (d b : Fin 31)
  /-- `add xd, xs, #n` -/
  | addi (d s : Fin 31) (n : BitVec 64)
  /-- `add xd, sp, #n` -/
  | addFromSp (d : Fin 31) (n : BitVec 64)
  /-- `bl` to the one function a stub calls -/
  | bl
  /-- `br xa`, and `ret` (`br x30`) -/
  | br (a : Fin 31)

/-- One instruction other than `bl` and `br`. -/
def exec (s : Cpu) : Insn → Cpu
  | .stpPre a b n =>
    { s with sp := s.sp + n, mem := stq (stq s.mem (s.sp + n) (s.x a)) (s.sp + n + 8) (s.x b) }
  | .ldpPost a b n =>
    { (s.set a (ldq s.mem s.sp)).set b (ldq s.mem (s.sp + 8)) with sp := s.sp + n }
  | .strqPre a n =>
    let m := stq s.mem (s.sp + n) ((s.q a).extractLsb' 0 64)
    { s with sp := s.sp + n, mem := stq m (s.sp + n + 8) ((s.q a).extractLsb' 64 64) }
  | .ldrqPost a n =>
    let v := ldq s.mem (s.sp + 8) ++ ldq s.mem s.sp
    { s with sp := s.sp + n, q := fun i => if i = a then v else s.q i }
  | .mov d a => s.set d (s.x a)
  | .movFromSp d => s.set d s.sp
  | .ldr d b => s.set d (ldq s.mem (s.x b))
  | .addi d a n => s.set d (s.x a + n)
  | .addFromSp d n => s.set d (s.sp + n)
  | .bl | .br _ => s

/-- Run straight-line code up to a branch to a register: where it goes, and the
state there.  `f` is the called function, `ra` the address after the `bl`. -/
def run (f : Cpu → Cpu) (ra : BitVec 64) : List Insn → Cpu → Option (BitVec 64 × Cpu)
  | [], _ => none
  | .br a :: _, s => some (s.x a, s)
  | .bl :: l, s => run f ra l (f (s.set 30 ra))
  | i :: l, s => run f ra l (exec s i)

/-- The state in which `f` is called. -/
def atCall (ra : BitVec 64) : List Insn → Cpu → Option Cpu
  | [], _ => none
  | .br _ :: _, _ => none
  | .bl :: _, s => some (s.set 30 ra)
  | i :: l, s => atCall ra l (exec s i)

/-- What a caller may rely on: x19-x29 and sp are kept (x18, the platform register,
need not be), and the stack from sp up to `top` is not written. -/
structure Aapcs (top : Addr) (s t : Cpu) : Prop where
  saved : ∀ r : Fin 31, 19 ≤ r → r ≤ 29 → t.x r = s.x r
  sp : t.sp = s.sp
  stack : ∀ x, (x - s.sp).toNat < (top - s.sp).toNat → t.mem x = s.mem x

end Ulp.A64Asm
