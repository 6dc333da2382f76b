/-
C17: generated x86_64 calls and jumps.
-/
import Verif.Proof.X86Reloc
import Verif.Model.X86Insn
import Verif.Spec.X86
namespace Ulp.X86Insn
open X86Reloc (fits32s)

/-- A memory holding the first `n` bytes of the generated instruction at `addr`. -/
def emit (m : Mem) (t : TextPoke) (addr : Addr) (n : Nat) : Mem := m.write addr (t.text.take n)

theorem bytes_join32 (p : BitVec 64) :
    (((p >>> 24).setWidth 8 : BitVec 8) ++ ((p >>> 16).setWidth 8 : BitVec 8) ++
      ((p >>> 8).setWidth 8 : BitVec 8) ++ ((p >>> 0).setWidth 8 : BitVec 8) : BitVec 32) =
      p.setWidth 32 := by
  ext i hi
  simp only [BitVec.getElem_append, BitVec.getElem_setWidth, BitVec.getLsbD_ushiftRight]
  repeat' split
  all_goals (congr 1; omega)

theorem imm32_emit (m : Mem) (op : BitVec 8) (d : BitVec 32) (a : Addr) :
    X86.imm32 (emit m ⟨op, d⟩ a 5) (a + 1) = d := by
  have h : ∀ i, i < 4 → emit m ⟨op, d⟩ a 5 (a + BitVec.ofNat 64 (i + 1)) =
      (d.setWidth 64 >>> (8 * i)).setWidth 8 := by
    intro i hi
    unfold emit
    rw [Mem.write_in _ _ _ _ (by simp [TextPoke.text]; omega) (by omega)]
    simp [TextPoke.text, leBytes]
  have h0 := h 0 (by omega); have h1 := h 1 (by omega)
  have h2 := h 2 (by omega); have h3 := h 3 (by omega)
  simp only [X86.imm32, BitVec.add_assoc, BitVec.reduceAdd, BitVec.ofNat_eq_ofNat, Nat.reduceAdd,
    Nat.reduceMul, Nat.zero_add] at *
  rw [h0, h1, h2, h3]
  rw [bytes_join32]
  exact BitVec.setWidth_setWidth_of_le _ (by decide) |>.trans (BitVec.setWidth_eq _)

theorem op_emit (m : Mem) (t : TextPoke) (a : Addr) (n : Nat) (h : 0 < n) : emit m t a n a = t.opcode := by
  have : emit m t a n a = emit m t a n (a + BitVec.ofNat 64 0) := by simp
  rw [this]
  unfold emit
  rw [Mem.write_in _ _ _ _ (by simp [TextPoke.text]; omega) (by omega)]
  cases n with
  | zero => omega
  | succ n => simp [TextPoke.text]

theorem byte1_emit (m : Mem) (t : TextPoke) (a : Addr) : emit m t a 2 (a + 1) = t.disp.setWidth 8 := by
  have : (1 : BitVec 64) = BitVec.ofNat 64 1 := rfl
  unfold emit
  rw [this, Mem.write_in _ _ _ _ (by simp [TextPoke.text]) (by omega)]
  simp [TextPoke.text, leBytes]

theorem add_sub_self (a b : BitVec 64) : a + (b - a) = b := by
  rw [BitVec.add_comm, BitVec.sub_add_cancel]

theorem reach_iff (n d : BitVec 64) (e : BitVec 64) : n + e = d ↔ d - n = e := by
  constructor
  · rintro rfl; rw [BitVec.add_comm, BitVec.add_sub_cancel]
  · rintro rfl; exact add_sub_self _ _

theorem fits8s (v : BitVec 64) :
    v = (v.setWidth 8).signExtend 64 ↔ (-2^7 ≤ v.toInt ∧ v.toInt < 2^7) := by
  rw [← BitVec.toInt_inj, BitVec.toInt_signExtend]
  rw [show min 64 8 = 8 from rfl]
  simp only [BitVec.toInt_eq_toNat_bmod, BitVec.toNat_setWidth]
  have := v.isLt
  simp only [Int.bmod_def]
  omega

/-- C17 for `jmp rel32`: executed at `addr`, the generated instruction goes to
`dest` exactly when the distance from the next instruction fits 32 bits;
registers, flags and memory are untouched. -/
theorem C17_x86_jmp32 (old : TextPoke) (addr dest : Addr) (s : X86.Cpu) (m : Mem)
    (hm : s.mem = emit m (genInsn old 0xe9 addr dest) addr (opcodeSize 0xe9)) (hip : s.rip = addr) :
    ∃ s', X86.step s = some s' ∧ s'.reg = s.reg ∧ s'.flags = s.flags ∧ s'.mem = s.mem ∧
      (s'.rip = dest ↔
        -2^31 ≤ (dest - (addr + 5)).toInt ∧ (dest - (addr + 5)).toInt < 2^31) := by
  obtain ⟨rip, reg, flags, mem⟩ := s
  dsimp only at hm hip; subst hm; subst hip
  refine ⟨⟨rip + 5 + ((dest - (rip + 5)).setWidth 32).signExtend 64, reg, flags, _⟩, ?_, rfl, rfl, rfl, ?_⟩
  · have h0 := op_emit m (genInsn old 0xe9 rip dest) rip (opcodeSize 0xe9) (by decide)
    have h1 := imm32_emit m 0xe9 ((dest - (rip + 5)).setWidth 32) rip
    unfold X86.step X86.decode
    dsimp only
    rw [h0]
    show (some (X86.Insn.jmpRel32 (X86.imm32 (emit m (genInsn old 0xe9 rip dest) rip 5) (rip + 1)))).map _ = _
    rw [show genInsn old 0xe9 rip dest = ⟨0xe9, (dest - (rip + 5)).setWidth 32⟩ from rfl, h1]
    rfl
  · dsimp only
    rw [reach_iff, fits32s]

/-- C17 for `call rel32`: same destination condition; the return address pushed
is the next instruction. -/
theorem C17_x86_call (old : TextPoke) (addr dest : Addr) (s : X86.Cpu) (m : Mem)
    (hm : s.mem = emit m (genInsn old 0xe8 addr dest) addr (opcodeSize 0xe8)) (hip : s.rip = addr) :
    ∃ s', X86.step s = some s' ∧ s'.reg X86.rsp = s.reg X86.rsp - 8 ∧
      s'.mem = s.mem.write (s.reg X86.rsp - 8) (leBytes 8 (addr + 5)) ∧
      (s'.rip = dest ↔
        -2^31 ≤ (dest - (addr + 5)).toInt ∧ (dest - (addr + 5)).toInt < 2^31) := by
  obtain ⟨rip, reg, flags, mem⟩ := s
  dsimp only at hm hip; subst hm; subst hip
  refine ⟨X86.exec ⟨rip, reg, flags, _⟩ (.callRel32 ((dest - (rip + 5)).setWidth 32)), ?_, ?_, rfl, ?_⟩
  · have h0 := op_emit m (genInsn old 0xe8 rip dest) rip (opcodeSize 0xe8) (by decide)
    have h1 := imm32_emit m 0xe8 ((dest - (rip + 5)).setWidth 32) rip
    unfold X86.step X86.decode
    dsimp only
    rw [h0]
    show (some (X86.Insn.callRel32 (X86.imm32 (emit m (genInsn old 0xe8 rip dest) rip 5) (rip + 1)))).map _ = _
    rw [show genInsn old 0xe8 rip dest = ⟨0xe8, (dest - (rip + 5)).setWidth 32⟩ from rfl, h1]
    rfl
  · simp [X86.exec, X86.setReg]
  · show rip + 5 + ((dest - (rip + 5)).setWidth 32).signExtend 64 = dest ↔ _
    rw [reach_iff, fits32s]

/-- C17: a function whose first bytes are replaced with `ulpatch_jmpq_replace` continues at the
new function, with all registers, flags and memory as they were. -/
theorem C17_x86_jmpq (old : TextPoke) (ip new : Addr) (s : X86.Cpu) (m : Mem)
    (hm : s.mem = emit m (jmpqReplace old ip new) ip 5) (hip : s.rip = ip) :
    ∃ s', X86.step s = some s' ∧ s'.reg = s.reg ∧ s'.flags = s.flags ∧ s'.mem = s.mem ∧
      (s'.rip = new ↔ -2^31 ≤ (new - (ip + 5)).toInt ∧ (new - (ip + 5)).toInt < 2^31) :=
  C17_x86_jmp32 old ip new s m hm hip

/-- C17: a call that is replaced with `ftrace_call_replace` calls the new function, which
returns behind the call. -/
theorem C17_x86_ftrace_call (old : TextPoke) (ip new : Addr) (s : X86.Cpu) (m : Mem)
    (hm : s.mem = emit m (callReplace old ip new) ip 5) (hip : s.rip = ip) :
    ∃ s', X86.step s = some s' ∧ s'.reg X86.rsp = s.reg X86.rsp - 8 ∧
      s'.mem = s.mem.write (s.reg X86.rsp - 8) (leBytes 8 (ip + 5)) ∧
      (s'.rip = new ↔ -2^31 ≤ (new - (ip + 5)).toInt ∧ (new - (ip + 5)).toInt < 2^31) :=
  C17_x86_call old ip new s m hm hip

/-- C17 for the 2-byte jump. -/
theorem C17_x86_jmp8 (old : TextPoke) (addr dest : Addr) (s : X86.Cpu) (m : Mem)
    (hm : s.mem = emit m (genInsn old 0xeb addr dest) addr (opcodeSize 0xeb)) (hip : s.rip = addr) :
    ∃ s', X86.step s = some s' ∧ s'.reg = s.reg ∧ s'.mem = s.mem ∧
      (s'.rip = dest ↔ -2^7 ≤ (dest - (addr + 2)).toInt ∧ (dest - (addr + 2)).toInt < 2^7) := by
  obtain ⟨rip, reg, flags, mem⟩ := s
  dsimp only at hm hip; subst hm; subst hip
  refine ⟨⟨rip + 2 + ((dest - (rip + 2)).setWidth 8).signExtend 64, reg, flags, _⟩, ?_, rfl, rfl, ?_⟩
  · have h0 := op_emit m (genInsn old 0xeb rip dest) rip (opcodeSize 0xeb) (by decide)
    have h1 := byte1_emit m (genInsn old 0xeb rip dest) rip
    unfold X86.step X86.decode
    dsimp only
    rw [h0]
    show (some (X86.Insn.jmpRel8 (emit m (genInsn old 0xeb rip dest) rip 2 (rip + 1)))).map _ = _
    rw [h1]
    show some (X86.exec _ (.jmpRel8 (((dest - (rip + 2)).setWidth 32).setWidth 8))) = _
    rw [BitVec.setWidth_setWidth_of_le _ (by decide)]
    rfl
  · dsimp only
    rw [reach_iff, fits8s]

/-- Sizes agree with the decoder: the size table gives the length of the
instruction that is decoded. -/
theorem C17_x86_sizes (m : Mem) (t : TextPoke) (a : Addr) (i : X86.Insn)
    (hop : 1 < opcodeSize t.opcode)
    (hd : X86.decode (emit m t a (opcodeSize t.opcode)) a = some i) : i.len = opcodeSize t.opcode := by
  have h0 := op_emit m t a (opcodeSize t.opcode) (by omega)
  unfold X86.decode at hd
  rw [h0] at hd
  generalize emit m t a (opcodeSize t.opcode) = mm at *
  generalize t.opcode = op at *
  unfold opcodeSize at *
  by_cases h1 : op = 0xcc
  · subst h1; simp at hop
  by_cases h2 : op = 0xc3
  · subst h2; simp at hop
  by_cases h3 : op = 0xe8
  · subst h3; simp at hd; subst hd; rfl
  by_cases h4 : op = 0xe9
  · subst h4; simp at hd; subst hd; rfl
  by_cases h5 : op = 0xeb
  · subst h5; simp at hd; subst hd; rfl
  · rw [if_neg h1, if_neg h2, if_neg h3, if_neg h4, if_neg h5] at hop; omega

/-- A jump to 0x402000 from 0x401000 reaches it; one across 4 GiB does not. -/
example : (-2^31 ≤ ((0x402000 : BitVec 64) - (0x401000 + 5)).toInt ∧
    ((0x402000 : BitVec 64) - (0x401000 + 5)).toInt < 2^31) ∧
    ¬ (((0x7f0000000000 : BitVec 64) - (0x401000 + 5)).toInt < 2^31) ∧
    (genInsn ⟨0, 0⟩ 0xe9 0x401000 0x402000).text = [0xe9, 0xfb, 0x0f, 0, 0] := by decide

/-- The scan used to find a profiled function's call site: what it returns is
the first 0xe8 byte, which need not be an instruction boundary. -/
theorem callqOffset_first (m : Mem) (f : Addr) (fuel off r : Nat)
    (h : callqOffset m f fuel off = some r) :
    off ≤ r ∧ m (f + BitVec.ofNat 64 r) = 0xe8 ∧
      ∀ k, off ≤ k → k < r → m (f + BitVec.ofNat 64 k) ≠ 0xe8 := by
  induction fuel generalizing off with
  | zero => cases h
  | succ fuel ih =>
    unfold callqOffset at h
    split at h
    · next he => injection h with h; subst h; exact ⟨Nat.le_refl _, he, fun k h1 h2 => by omega⟩
    · next hne =>
      obtain ⟨h1, h2, h3⟩ := ih _ h
      refine ⟨by omega, h2, fun k hk1 hk2 => ?_⟩
      by_cases hk : k = off
      · subst hk; exact hne
      · exact h3 k (by omega) hk2

end Ulp.X86Insn
