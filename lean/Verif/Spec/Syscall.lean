/-
What the processor and the kernel do with a system call instruction followed by a
breakpoint, from the processor manuals and the kernel's calling convention
(syscall(2)).
-/
import Verif.Model.Ptrace
namespace Ulp.SysSpec
open Ptrace

/-- A kernel: from the number, the six arguments and the memory of the process to the
result and the memory afterwards. -/
abbrev Kernel := BitVec 64 → (BitVec 64 × BitVec 64 × BitVec 64 × BitVec 64 × BitVec 64 × BitVec 64) → Mem →
  BitVec 64 × Mem

/-- One instruction. -/
inductive Step (R : Type) where
  | next (t : Tgt R)
  /-- a breakpoint: the process stops with SIGTRAP -/
  | trap (t : Tgt R)
  /-- some other instruction -/
  | other

/-- x86_64: `0f 05` is `syscall`: number in rax, arguments in rdi rsi rdx r10 r8 r9,
result in rax; rcx and r11 are overwritten.  `cc` is `int3`. -/
def x86Step (k : Kernel) (t : Tgt X86Regs) : Step X86Regs :=
  let r := t.regs
  if t.mem.read r.rip 2 = [0x0f#8, 0x05#8] then
    let out := k r.rax (r.rdi, r.rsi, r.rdx, r.r10, r.r8, r.r9) t.mem
    .next ⟨{ r with rax := out.1, rcx := r.rip + 2#64, r11 := r.eflags, rip := r.rip + 2#64 }, out.2⟩
  else if t.mem.read r.rip 1 = [0xcc#8] then .trap ⟨{ r with rip := r.rip + 1#64 }, t.mem⟩
  else .other

/-- aarch64: `d4000001` is `svc #0`: number in x8, arguments in x0 to x5, result in
x0.  `brk` stops at the instruction itself. -/
def a64Step (k : Kernel) (t : Tgt A64Regs) : Step A64Regs :=
  let r := t.regs
  if leNat (t.mem.read r.pc 4) = 0xd4000001 then
    let out := k (r.regs 8) (r.regs 0, r.regs 1, r.regs 2, r.regs 3, r.regs 4, r.regs 5) t.mem
    .next ⟨{ r with regs := (fun i => if i = 0 then out.1 else r.regs i), pc := r.pc + 4#64 }, out.2⟩
  else if leNat (t.mem.read r.pc 4) % 0x20 = 0 ∧ leNat (t.mem.read r.pc 4) / 0x200000 = 0x6a1 then .trap t
  else .other

/-- The process runs from `t` to a breakpoint, where it is `t'`. -/
inductive RunsTo {R : Type} (step : Tgt R → Step R) : Tgt R → Tgt R → Prop where
  | stop {t t'} : step t = .trap t' → RunsTo step t t'
  | go {t t1 t'} : step t = .next t1 → RunsTo step t1 t' → RunsTo step t t'

end Ulp.SysSpec
