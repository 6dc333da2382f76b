/-
Specification: the x86_64 instructions the tracing stubs use, in assembler form,
and what the System V calling convention promises about a called function.

From the Intel SDM volume 2 and the System V AMD64 psABI 3.2; independent of the
ulpatch sources.  Flags are not modelled: no convention keeps them over a call.
-/
import Verif.Model.Mem
namespace Ulp.X86Asm

inductive Reg where
  | rax | rcx | rdx | rbx | rsp | rbp | rsi | rdi | r8 | r9 | r10 | r11 | r12 | r13 | r14 | r15
  deriving DecidableEq

open Reg

/-- General registers, vector registers, memory. -/
structure Cpu where
  reg : Reg → BitVec 64
  xmm : Fin 16 → BitVec 128
  mem : Mem

/-- Load and store of a quadword. -/
def ldq (m : Mem) (a : Addr) : BitVec 64 := m.load a 8
def stq (m : Mem) (a : Addr) (v : BitVec 64) : Mem := m.write a (leBytes 8 v)

def Cpu.set (s : Cpu) (r : Reg) (v : BitVec 64) : Cpu :=
  { s with reg := fun i => if i = r then v else s.reg i }

/-- Instructions, operands in AT&T order (source first). -/
inductive Insn where
  | subi (n : BitVec 64) (d : Reg)
  | addi (n : BitVec 64) (d : Reg)
  | andi (n : BitVec 64) (d : Reg)
  /-- `movq %s, %d` -/
  | mov (s d : Reg)
  /-- `movq %s, off(%b)` -/
  | store (s : Reg) (off : BitVec 64) (b : Reg)
  /-- `movq off(%b), %d` -/
  | load (off : BitVec 64) (b d : Reg)
  /-- `lea off(%b), %d` -/
  | lea (off : BitVec 64) (b d : Reg)
  | push (s : Reg)
  | pop (d : Reg)
  /-- `movdqu %xmm, off(%b)` and back -/
  | storeX (x : Fin 16) (off : BitVec 64) (b : Reg)
  | loadX (off : BitVec 64) (b : Reg) (x : Fin 16)
  /-- `call` of the one function a stub calls -/
  | call
  | ret

/-- One instruction other than `call` and `ret`. -/
def exec (s : Cpu) : Insn → Cpu
  | .subi n d => s.set d (s.reg d - n)
  | .addi n d => s.set d (s.reg d + n)
  | .andi n d => s.set d (s.reg d &&& n)
  | .mov a d => s.set d (s.reg a)
  | .store a off b => { s with mem := stq s.mem (s.reg b + off) (s.reg a) }
  | .load off b d => s.set d (ldq s.mem (s.reg b + off))
  | .lea off b d => s.set d (s.reg b + off)
  | .push a =>
    let p := s.reg rsp - 8
    { s.set rsp p with mem := stq s.mem p (s.reg a) }
  | .pop d => (s.set rsp (s.reg rsp + 8)).set d (ldq s.mem (s.reg rsp))
  | .storeX x off b =>
    let m := stq s.mem (s.reg b + off) ((s.xmm x).extractLsb' 0 64)
    { s with mem := stq m (s.reg b + off + 8) ((s.xmm x).extractLsb' 64 64) }
  | .loadX off b x =>
    let v := ldq s.mem (s.reg b + off + 8) ++ ldq s.mem (s.reg b + off)
    { s with xmm := fun i => if i = x then v else s.xmm i }
  | .call | .ret => s

/-- Run straight-line code up to `ret`: where it returns to, and the state there.
`f` is the called function, from its first instruction to after its return, `ra`
the address after the `call`. -/
def run (f : Cpu → Cpu) (ra : BitVec 64) : List Insn → Cpu → Option (BitVec 64 × Cpu)
  | [], _ => none
  | .ret :: _, s => some (ldq s.mem (s.reg rsp), s.set rsp (s.reg rsp + 8))
  | .call :: l, s =>
    let p := s.reg rsp - 8
    run f ra l (f { s.set rsp p with mem := stq s.mem p ra })
  | i :: l, s => run f ra l (exec s i)

/-- The state in which `f` is called first. -/
def atCall (ra : BitVec 64) : List Insn → Cpu → Option Cpu
  | [], _ => none
  | .ret :: _, _ => none
  | .call :: _, s =>
    let p := s.reg rsp - 8
    some { s.set rsp p with mem := stq s.mem p ra }
  | i :: l, s => atCall ra l (exec s i)

/-- What a caller may rely on: the callee-saved registers are kept, the return
address is popped, and the stack from there up to `top` is not written. -/
structure Sysv (top : Addr) (s t : Cpu) : Prop where
  saved : ∀ r, r = rbx ∨ r = rbp ∨ r = r12 ∨ r = r13 ∨ r = r14 ∨ r = r15 → t.reg r = s.reg r
  sp : t.reg rsp = s.reg rsp + 8
  stack : ∀ x, (x - (s.reg rsp + 8)).toNat < (top - (s.reg rsp + 8)).toNat →
    t.mem x = s.mem x

end Ulp.X86Asm
