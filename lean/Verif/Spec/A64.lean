/-
Specification: the A64 instructions that ulpatch writes or relocates.

Written from the Arm Architecture Reference Manual (C6.2), independent of the
ulpatch sources.  Little-endian instruction fetch, 64-bit forms.
-/
import Verif.Model.Mem
namespace Ulp.A64

/-- Program counter, general registers (index 31 reads as zero), memory. -/
structure Cpu where
  pc : BitVec 64
  x : Fin 31 → BitVec 64
  mem : Mem

/-- The 32-bit instruction word at `a`. -/
def fetch (m : Mem) (a : Addr) : BitVec 32 :=
  m (a + 3) ++ m (a + 2) ++ m (a + 1) ++ m a

/-- Quadword in memory. -/
def quad (m : Mem) (a : Addr) : BitVec 64 := fetch m (a + 4) ++ fetch m a

inductive Insn where
  | nop
  /-- LDR (literal), 64-bit -/
  | ldrLit (rt : BitVec 5) (imm19 : BitVec 19)
  | br (rn : BitVec 5)
  | b (imm26 : BitVec 26)
  | bl (imm26 : BitVec 26)
  | adr (rd : BitVec 5) (imm21 : BitVec 21)
  | adrp (rd : BitVec 5) (imm21 : BitVec 21)
  /-- ADD (immediate), 64-bit, no shift -/
  | addImm (rd rn : BitVec 5) (imm12 : BitVec 12)
  /-- MOVZ/MOVN/MOVK, 64-bit -/
  | movz (rd : BitVec 5) (hw : BitVec 2) (imm16 : BitVec 16)
  | movn (rd : BitVec 5) (hw : BitVec 2) (imm16 : BitVec 16)
  | movk (rd : BitVec 5) (hw : BitVec 2) (imm16 : BitVec 16)
  deriving DecidableEq, Repr

/-- Decode an instruction word; `none` outside the subset. -/
def decodeWord (w : BitVec 32) : Option Insn :=
  if w = 0xd503201f then some .nop
  else if w.extractLsb' 24 8 = 0x58 then
    some (.ldrLit (w.extractLsb' 0 5) (w.extractLsb' 5 19))
  else if w.extractLsb' 10 22 = 0x3587c0 ∧ w.extractLsb' 0 5 = 0 then
    some (.br (w.extractLsb' 5 5))
  else if w.extractLsb' 26 6 = 0b000101 then some (.b (w.extractLsb' 0 26))
  else if w.extractLsb' 26 6 = 0b100101 then some (.bl (w.extractLsb' 0 26))
  else if w.extractLsb' 24 5 = 0b10000 then
    let imm := w.extractLsb' 5 19 ++ w.extractLsb' 29 2
    if w.extractLsb' 31 1 = 0 then some (.adr (w.extractLsb' 0 5) imm)
    else some (.adrp (w.extractLsb' 0 5) imm)
  else if w.extractLsb' 22 10 = 0b1001000100 then
    some (.addImm (w.extractLsb' 0 5) (w.extractLsb' 5 5) (w.extractLsb' 10 12))
  else if w.extractLsb' 23 9 = 0b110100101 then
    some (.movz (w.extractLsb' 0 5) (w.extractLsb' 21 2) (w.extractLsb' 5 16))
  else if w.extractLsb' 23 9 = 0b100100101 then
    some (.movn (w.extractLsb' 0 5) (w.extractLsb' 21 2) (w.extractLsb' 5 16))
  else if w.extractLsb' 23 9 = 0b111100101 then
    some (.movk (w.extractLsb' 0 5) (w.extractLsb' 21 2) (w.extractLsb' 5 16))
  else none

/-- Read a register number; 31 is the zero register. -/
def Cpu.get (s : Cpu) (r : BitVec 5) : BitVec 64 :=
  if h : r.toNat < 31 then s.x ⟨r.toNat, h⟩ else 0

/-- Write a register number; writes to 31 are discarded. -/
def Cpu.set (s : Cpu) (r : BitVec 5) (v : BitVec 64) : Cpu :=
  { s with x := fun i => if i.val = r.toNat then v else s.x i }

/-- Clear the low 12 bits. -/
def page (a : BitVec 64) : BitVec 64 := a.extractLsb' 12 52 ++ (0 : BitVec 12)

/-- Execute.  ADD (immediate) with register 31 means SP, which is not modelled:
`none`. -/
def exec (s : Cpu) : Insn → Option Cpu
  | .nop => some { s with pc := s.pc + 4 }
  | .ldrLit rt i =>
      let s' := s.set rt (quad s.mem (s.pc + (i ++ (0 : BitVec 2)).signExtend 64))
      some { s' with pc := s.pc + 4 }
  | .br rn => some { s with pc := s.get rn }
  | .b i => some { s with pc := s.pc + (i ++ (0 : BitVec 2)).signExtend 64 }
  | .bl i =>
      let s' := s.set 30 (s.pc + 4)
      some { s' with pc := s.pc + (i ++ (0 : BitVec 2)).signExtend 64 }
  | .adr rd i => some { s.set rd (s.pc + i.signExtend 64) with pc := s.pc + 4 }
  | .adrp rd i =>
      some { s.set rd (page s.pc + (i ++ (0 : BitVec 12)).signExtend 64) with pc := s.pc + 4 }
  | .addImm rd rn i =>
      if rd = 31 ∨ rn = 31 then none
      else some { s.set rd (s.get rn + i.setWidth 64) with pc := s.pc + 4 }
  | .movz rd hw i =>
      some { s.set rd (i.setWidth 64 <<< (16 * hw.toNat)) with pc := s.pc + 4 }
  | .movn rd hw i =>
      some { s.set rd (~~~ (i.setWidth 64 <<< (16 * hw.toNat))) with pc := s.pc + 4 }
  | .movk rd hw i =>
      let keep := s.get rd &&& ~~~ ((0xffff : BitVec 64) <<< (16 * hw.toNat))
      some { s.set rd (keep ||| (i.setWidth 64 <<< (16 * hw.toNat))) with pc := s.pc + 4 }

def step (s : Cpu) : Option Cpu := (decodeWord (fetch s.mem s.pc)).bind (exec s)

/-- `n` steps. -/
def steps : Nat → Cpu → Option Cpu
  | 0, s => some s
  | n + 1, s => (step s).bind (steps n)

end Ulp.A64
