/-
Specification: the x86_64 instructions that do nothing.

Written from the Intel SDM volume 2 (NOP, opcodes `90` and `0F 1F /0`, operand size prefix
`66`, ModRM and SIB encoding with 64-bit addresses), independent of the ulpatch sources.
-/
import Verif.Spec.X86
namespace Ulp.X86

/-- The number of bytes of the operand whose ModRM byte is `modrm`, with that byte; `sib` is the
byte behind it. -/
def operandLen (modrm sib : Byte) : Nat :=
  let md := modrm.extractLsb' 6 2
  let rm := modrm.extractLsb' 0 3
  1 + (if md ≠ 3 ∧ rm = 4 then 1 else 0) +
    (if md = 1 then 1
     else if md = 2 then 4
     else if md = 0 ∧ (rm = 5 ∨ rm = 4 ∧ sib.extractLsb' 0 3 = 5) then 4
     else 0)

/-- The length of the instruction that these bytes begin with, if it is one that does nothing. -/
def nopLen : List Byte → Option Nat
  | [] => none
  | b :: rest =>
    if b = 0x66 then (nopLen rest).map (· + 1)
    else if b = 0x90 then some 1
    else match b, rest with
      | 0x0f, 0x1f :: modrm :: sib :: _ =>
        if modrm.extractLsb' 3 3 = 0 then some (2 + operandLen modrm sib) else none
      | _, _ => none

/-- One step of a processor at an instruction that does nothing.  Instructions have at most 15
bytes. -/
def nopStep (s : Cpu) : Option Cpu :=
  match nopLen (s.mem.read s.rip 15) with
  | none => none
  | some n => if n ≤ 15 then some { s with rip := s.rip + BitVec.ofNat 64 n } else none

/-- A number of steps. -/
def nopSteps : Nat → Cpu → Option Cpu
  | 0, s => some s
  | n + 1, s => (nopStep s).bind (nopSteps n)

end Ulp.X86
