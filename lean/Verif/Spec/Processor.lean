/-
Specification: what a processor is to the threads of a process, and the two processors of
`Spec/X86` and `Spec/A64` as such.

A processor is any function that executes one instruction and depends only on the bytes it
fetches and loads; so what is proved for all of them holds for the whole instruction sets and not
only for the few instructions of the two examples.
-/
import Verif.Spec.X86
import Verif.Spec.A64
namespace Ulp

/-- A processor as a thread sees it. -/
structure Isa where
  /-- The registers, with the program counter. -/
  Regs : Type
  pc : Regs → Addr
  /-- One instruction: the registers afterwards and the bytes that are stored, or `none` if there
  is no instruction. -/
  step : Mem → Regs → Option (Regs × List (Addr × Byte))
  /-- The addresses that the instruction is fetched from and that it loads from. -/
  reads : Mem → Regs → List Addr
  fetches : ∀ m r, pc r ∈ reads m r
  /-- Nothing else in the memory matters. -/
  depends : ∀ m m' r, (∀ a ∈ reads m r, m' a = m a) → step m' r = step m r
  dependsReads : ∀ m m' r, (∀ a ∈ reads m r, m' a = m a) → reads m' r = reads m r

/-- `n` addresses from `a` on. -/
def span (a : Addr) (n : Nat) : List Addr := (List.range n).map fun i => a + BitVec.ofNat 64 i

/-- Bytes to be stored from `a` on. -/
def storesAt (a : Addr) (bs : List Byte) : List (Addr × Byte) := (span a bs.length).zip bs

namespace X86

structure Regs where
  rip : BitVec 64
  reg : Fin 16 → BitVec 64
  flags : BitVec 64

def Regs.cpu (r : Regs) (m : Mem) : Cpu := ⟨r.rip, r.reg, r.flags, m⟩

def Cpu.regs (s : Cpu) : Regs := ⟨s.rip, s.reg, s.flags⟩

/-- The length of the instructions with this first byte. -/
def fetchLen (op : Byte) : Nat :=
  if op = 0xe9 ∨ op = 0xe8 then 5 else if op = 0xeb then 2 else if op = 0xff then 6 else 1

/-- Where an instruction loads from. -/
def loads (r : Regs) : Insn → List Addr
  | .jmpMemRip d => span (r.rip + 6 + d.signExtend 64) 8
  | .ret => span (r.reg rsp) 8
  | _ => []

/-- What an instruction stores. -/
def stores (r : Regs) : Insn → List (Addr × Byte)
  | .callRel32 _ => storesAt (r.reg rsp - 8) (leBytes 8 (r.rip + 5))
  | _ => []

end X86

namespace A64

structure Regs where
  pc : BitVec 64
  x : Fin 31 → BitVec 64

def Regs.cpu (r : Regs) (m : Mem) : Cpu := ⟨r.pc, r.x, m⟩

def Cpu.regs (s : Cpu) : Regs := ⟨s.pc, s.x⟩

/-- Where an instruction loads from. -/
def loads (r : Regs) : Insn → List Addr
  | .ldrLit _ i => span (r.pc + (i ++ (0 : BitVec 2)).signExtend 64) 8
  | _ => []

end A64

theorem mem_span {a x : Addr} {n : Nat} (i : Nat) (h : i < n) (e : x = a + BitVec.ofNat 64 i) :
    x ∈ span a n := List.mem_map.2 ⟨i, List.mem_range.2 h, e.symm⟩

theorem mem_span_self {a : Addr} {n : Nat} (h : 0 < n) : a ∈ span a n :=
  mem_span 0 h (by simp)

/-- A word is the same if its bytes are. -/
theorem imm32_congr {m m' : Mem} {a : Addr} (h : ∀ x ∈ span a 4, m' x = m x) :
    X86.imm32 m' a = X86.imm32 m a := by
  unfold X86.imm32
  rw [h a (mem_span_self (by omega)), h (a + 1) (mem_span 1 (by omega) rfl),
    h (a + 2) (mem_span 2 (by omega) rfl), h (a + 3) (mem_span 3 (by omega) rfl)]

theorem quad_congr {m m' : Mem} {a : Addr} (h : ∀ x ∈ span a 8, m' x = m x) :
    X86.quad m' a = X86.quad m a := by
  unfold X86.quad
  rw [imm32_congr fun x hx => h x ?_, imm32_congr fun x hx => h x ?_]
  · obtain ⟨i, hi, e⟩ := List.mem_map.1 hx
    exact mem_span i (by have := List.mem_range.1 hi; omega) e.symm
  · obtain ⟨i, hi, e⟩ := List.mem_map.1 hx
    have := List.mem_range.1 hi
    refine mem_span (4 + i) (by omega) ?_
    rw [← e, BitVec.add_assoc]
    congr 1
    rw [BitVec.ofNat_add]; rfl

namespace X86

theorem imm_at {m m' : Mem} {a : Addr} {n : Nat} (k : Nat) (hk : k + 4 ≤ n)
    (h : ∀ x ∈ span a n, m' x = m x) :
    imm32 m' (a + BitVec.ofNat 64 k) = imm32 m (a + BitVec.ofNat 64 k) := by
  refine imm32_congr fun x hx => h x ?_
  obtain ⟨i, hi, e⟩ := List.mem_map.1 hx
  have := List.mem_range.1 hi
  refine mem_span (k + i) (by omega) ?_
  rw [← e, BitVec.add_assoc, BitVec.ofNat_add]

theorem fetchLen_pos (op : Byte) : 0 < fetchLen op := by
  unfold fetchLen; split <;> (try split) <;> (try split) <;> omega

theorem decode_congr {m m' : Mem} {a : Addr} (h : ∀ x ∈ span a (fetchLen (m a)), m' x = m x) :
    decode m' a = decode m a := by
  have h0 : m' a = m a := h a (mem_span_self (fetchLen_pos _))
  unfold decode
  rw [h0]
  dsimp only
  by_cases h1 : m a = 0x90
  · rw [if_pos h1, if_pos h1]
  rw [if_neg h1, if_neg h1]
  by_cases h2 : m a = 0xe9
  · have e : fetchLen (m a) = 5 := by rw [h2]; decide
    rw [e] at h
    rw [if_pos h2, if_pos h2]
    exact congrArg (fun d => some (Insn.jmpRel32 d)) (imm_at 1 (by omega) h)
  rw [if_neg h2, if_neg h2]
  by_cases h3 : m a = 0xeb
  · have e : fetchLen (m a) = 2 := by rw [h3]; decide
    rw [e] at h
    rw [if_pos h3, if_pos h3]
    exact congrArg (fun d => some (Insn.jmpRel8 d)) (h _ (mem_span 1 (by omega) rfl))
  rw [if_neg h3, if_neg h3]
  by_cases h4 : m a = 0xe8
  · have e : fetchLen (m a) = 5 := by rw [h4]; decide
    rw [e] at h
    rw [if_pos h4, if_pos h4]
    exact congrArg (fun d => some (Insn.callRel32 d)) (imm_at 1 (by omega) h)
  rw [if_neg h4, if_neg h4]
  by_cases h5 : m a = 0xc3
  · rw [if_pos h5, if_pos h5]
  rw [if_neg h5, if_neg h5]
  by_cases h6 : m a = 0xff
  · have e : fetchLen (m a) = 6 := by rw [h6]; decide
    rw [e] at h
    rw [if_pos h6, if_pos h6, show m' (a + 1) = m (a + 1) from h _ (mem_span 1 (by omega) rfl),
      show imm32 m' (a + 2) = imm32 m (a + 2) from imm_at 2 (by omega) h]
  · rw [if_neg h6, if_neg h6]

/-- What an instruction does to the registers, and what it loads from. -/
theorem exec_regs {m m' : Mem} (r : Regs) (i : Insn) (h : ∀ x ∈ loads r i, m' x = m x) :
    (exec (r.cpu m') i).regs = (exec (r.cpu m) i).regs := by
  cases i with
  | jmpMemRip d =>
    exact congrArg (fun v => (⟨v, r.reg, r.flags⟩ : Regs)) (quad_congr h)
  | ret =>
    exact congrArg (fun v => (⟨v, setReg r.reg rsp (r.reg rsp + 8), r.flags⟩ : Regs)) (quad_congr h)
  | _ => rfl

/-- The instructions of `Spec/X86` as a processor. -/
def isa : Isa where
  Regs := Regs
  pc := Regs.rip
  step m r := (decode m r.rip).map fun i => ((exec (r.cpu m) i).regs, stores r i)
  reads m r := span r.rip (fetchLen (m r.rip)) ++
    (match decode m r.rip with | some i => loads r i | none => [])
  fetches m r := List.mem_append_left _ (mem_span_self (fetchLen_pos _))
  depends m m' r h := by
    have hd : decode m' r.rip = decode m r.rip :=
      decode_congr fun x hx => h x (List.mem_append_left _ hx)
    rw [hd]
    cases hi : decode m r.rip with
    | none => rfl
    | some i =>
      simp only [Option.map_some]
      rw [exec_regs r i fun x hx => h x (List.mem_append_right _ (by rw [hi]; exact hx))]
  dependsReads m m' r h := by
    have hd : decode m' r.rip = decode m r.rip :=
      decode_congr fun x hx => h x (List.mem_append_left _ hx)
    rw [hd, h r.rip (List.mem_append_left _ (mem_span_self (fetchLen_pos _)))]

end X86

namespace A64

theorem fetch_eq (m : Mem) (a : Addr) : fetch m a = X86.imm32 m a := rfl

theorem exec_regs {m m' : Mem} (r : Regs) (i : Insn) (h : ∀ x ∈ loads r i, m' x = m x) :
    (exec (r.cpu m') i).map Cpu.regs = (exec (r.cpu m) i).map Cpu.regs := by
  cases i with
  | ldrLit rt j =>
    have : quad m' (r.pc + (j ++ (0 : BitVec 2)).signExtend 64) =
        quad m (r.pc + (j ++ (0 : BitVec 2)).signExtend 64) := quad_congr h
    simp only [exec, Regs.cpu, Cpu.regs, Cpu.set, Option.map_some]
    rw [this]
  | addImm rd rn j =>
    simp only [exec]
    by_cases hc : rd = 31 ∨ rn = 31
    · rw [if_pos hc, if_pos hc]
    · rw [if_neg hc, if_neg hc]; rfl
  | _ => rfl

/-- The instructions of `Spec/A64` as a processor. -/
def isa : Isa where
  Regs := Regs
  pc := Regs.pc
  step m r := (decodeWord (fetch m r.pc)).bind fun i =>
    ((exec (r.cpu m) i).map Cpu.regs).map fun r' => (r', [])
  reads m r := span r.pc 4 ++
    (match decodeWord (fetch m r.pc) with | some i => loads r i | none => [])
  fetches m r := List.mem_append_left _ (mem_span_self (by omega))
  depends m m' r h := by
    have hd : fetch m' r.pc = fetch m r.pc :=
      imm32_congr fun x hx => h x (List.mem_append_left _ hx)
    rw [hd]
    cases hi : decodeWord (fetch m r.pc) with
    | none => rfl
    | some i =>
      simp only [Option.bind_some]
      rw [exec_regs r i fun x hx => h x (List.mem_append_right _ (by rw [hi]; exact hx))]
  dependsReads m m' r h := by
    have hd : fetch m' r.pc = fetch m r.pc :=
      imm32_congr fun x hx => h x (List.mem_append_left _ hx)
    rw [hd]

end A64

/-- The store of the address to return to is the write of `Spec/X86`; nothing else is stored. -/
theorem X86.isa_step_mem (m : Mem) (r : X86.Regs) (i : X86.Insn) :
    (X86.exec (r.cpu m) i).mem = match i with
      | .callRel32 _ => m.write (r.reg X86.rsp - 8) (leBytes 8 (r.rip + 5))
      | _ => m := by
  cases i <;> rfl

end Ulp
