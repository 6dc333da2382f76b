/-
Specification: the few x86_64 instructions that ulpatch writes into a process.

Written from the Intel SDM volume 2 (opcode map, ModRM encoding), independent
of the ulpatch sources.  64-bit mode, no prefixes.
-/
import Verif.Model.Mem
namespace Ulp.X86

/-- Architectural state that matters: instruction pointer, the 16 general
registers (index 4 is RSP), RFLAGS and memory. -/
structure Cpu where
  rip : BitVec 64
  reg : Fin 16 → BitVec 64
  flags : BitVec 64
  mem : Mem

/-- An instruction of the subset. -/
inductive Insn where
  /-- `90` -/
  | nop
  /-- `E9 rel32`: near jump relative to the next instruction -/
  | jmpRel32 (disp : BitVec 32)
  /-- `EB rel8` -/
  | jmpRel8 (disp : BitVec 8)
  /-- `E8 rel32`: near call relative to the next instruction -/
  | callRel32 (disp : BitVec 32)
  /-- `FF /4`, mod=00 rm=101: jump to the quadword stored at next instruction
  plus disp32 -/
  | jmpMemRip (disp : BitVec 32)
  /-- `C3` -/
  | ret
  deriving DecidableEq, Repr

/-- Length in bytes. -/
def Insn.len : Insn → Nat
  | .nop => 1
  | .jmpRel32 _ => 5
  | .jmpRel8 _ => 2
  | .callRel32 _ => 5
  | .jmpMemRip _ => 6
  | .ret => 1

/-- 32-bit little-endian immediate at `a`. -/
def imm32 (m : Mem) (a : Addr) : BitVec 32 :=
  m (a + 3) ++ m (a + 2) ++ m (a + 1) ++ m a

/-- Little-endian quadword at `a`. -/
def quad (m : Mem) (a : Addr) : BitVec 64 := imm32 m (a + 4) ++ imm32 m a

/-- Decode the instruction at `a`; `none` if it is outside the subset. -/
def decode (m : Mem) (a : Addr) : Option Insn :=
  let op := m a
  if op = 0x90 then some .nop
  else if op = 0xe9 then some (.jmpRel32 (imm32 m (a + 1)))
  else if op = 0xeb then some (.jmpRel8 (m (a + 1)))
  else if op = 0xe8 then some (.callRel32 (imm32 m (a + 1)))
  else if op = 0xc3 then some .ret
  else if op = 0xff then
    let modrm := m (a + 1)
    let md := modrm.extractLsb' 6 2
    let ext := modrm.extractLsb' 3 3
    let rm := modrm.extractLsb' 0 3
    if md = 0 ∧ ext = 4 ∧ rm = 5 then some (.jmpMemRip (imm32 m (a + 2)))
    else none
  else none

def setReg (r : Fin 16 → BitVec 64) (i : Fin 16) (v : BitVec 64) : Fin 16 → BitVec 64 :=
  fun j => if j = i then v else r j

/-- RSP. -/
def rsp : Fin 16 := 4

/-- Execute one decoded instruction. -/
def exec (s : Cpu) (i : Insn) : Cpu :=
  let next := s.rip + BitVec.ofNat 64 i.len
  match i with
  | .nop => { s with rip := next }
  | .jmpRel32 d => { s with rip := next + d.signExtend 64 }
  | .jmpRel8 d => { s with rip := next + d.signExtend 64 }
  | .callRel32 d =>
      let sp := s.reg rsp - 8
      { s with rip := next + d.signExtend 64
               reg := setReg s.reg rsp sp
               mem := s.mem.write sp (leBytes 8 next) }
  | .jmpMemRip d => { s with rip := quad s.mem (next + d.signExtend 64) }
  | .ret => { s with rip := quad s.mem (s.reg rsp), reg := setReg s.reg rsp (s.reg rsp + 8) }

/-- One step: fetch, decode, execute. -/
def step (s : Cpu) : Option Cpu := (decode s.mem s.rip).map (exec s)

end Ulp.X86
