/-
C01, C02: a thread entering a patched function continues in the replacement.
-/
import Verif.Proof.JmpTable
namespace Ulp

/-- C01.  In the memory left by installing the entry for `p` at `t`, a CPU at
`t` makes one step, to the state that differs only in `rip = p`. -/
theorem C01_x86_redirect (m : Mem) (t p : Addr) (s : X86.Cpu)
    (hpc : s.rip = t) (hmem : s.mem = installEntry m .x86_64 t p) :
    X86.step s = some { s with rip := p } := by
  have h : ∀ i, i < 8 → installEntry m .x86_64 t p (t + BitVec.ofNat 64 i) =
      ((0x90900000000225ff : BitVec 64) >>> (8*i)).setWidth 8 := install_lo m .x86_64 t p
  have h0 := h 0 (by omega); have h1 := h 1 (by omega); have h2 := h 2 (by omega)
  have h3 := h 3 (by omega); have h4 := h 4 (by omega); have h5 := h 5 (by omega)
  simp only [Nat.reduceMul, BitVec.ofNat_eq_ofNat, BitVec.add_zero] at h0 h1 h2 h3 h4 h5
  have hq := x86_quad_entry m .x86_64 t p
  unfold X86.step
  rw [hmem, hpc]
  have hd : X86.decode (installEntry m .x86_64 t p) t = some (.jmpMemRip 2) := by
    simp only [X86.decode, X86.imm32, BitVec.ofNat_eq_ofNat, BitVec.add_assoc, BitVec.reduceAdd, h0, h1, h2, h3, h4, h5]
    decide
  rw [hd]
  simp only [Option.map_some, X86.exec, X86.Insn.len]
  rw [hmem, hpc, BitVec.add_assoc]
  have : (BitVec.ofNat 64 6 + BitVec.signExtend 64 (2 : BitVec 32)) = 8 := by decide
  rw [this, hq]

/-- C01, frame: installing the entry changes no byte outside the 16 bytes at
the start of the function. -/
theorem C01_x86_frame (m : Mem) (arch : Arch) (t p x : Addr) (h : 16 ≤ (x - t).toNat) :
    installEntry m arch t p x = m x := by
  apply Mem.write_out; rw [jmpEntry_length]; exact h

example : ∃ s, X86.step s = some { s with rip := 0x7f0000001234 } ∧ s.rip = 0x401000 :=
  ⟨⟨0x401000, fun _ => 7, 2, installEntry (fun _ => 0x55) .x86_64 0x401000 0x7f0000001234⟩,
   C01_x86_redirect (fun _ => 0x55) 0x401000 0x7f0000001234 _ rfl rfl, rfl⟩

/-- C02.  Two steps; `pc = p`, `x17 = p`, everything else unchanged. -/
theorem C02_a64_redirect (m : Mem) (t p : Addr) (s : A64.Cpu)
    (hpc : s.pc = t) (hmem : s.mem = installEntry m .aarch64 t p) :
    A64.steps 2 s = some { pc := p, x := fun i => if i = 17 then p else s.x i, mem := s.mem } := by
  have h : ∀ i, i < 8 → installEntry m .aarch64 t p (t + BitVec.ofNat 64 i) =
      ((0xd61f022058000051 : BitVec 64) >>> (8*i)).setWidth 8 := install_lo m .aarch64 t p
  have h0 := h 0 (by omega); have h1 := h 1 (by omega); have h2 := h 2 (by omega)
  have h3 := h 3 (by omega); have h4 := h 4 (by omega); have h5 := h 5 (by omega)
  have h6 := h 6 (by omega); have h7 := h 7 (by omega)
  simp only [Nat.reduceMul, BitVec.ofNat_eq_ofNat, BitVec.add_zero] at h0 h1 h2 h3 h4 h5 h6 h7
  have hq := a64_quad_entry m .aarch64 t p
  have f0 : A64.fetch (installEntry m .aarch64 t p) t = 0x58000051 := by
    simp only [A64.fetch, BitVec.ofNat_eq_ofNat, h0, h1, h2, h3]; decide
  have f4 : A64.fetch (installEntry m .aarch64 t p) (t + 4) = 0xd61f0220 := by
    simp only [A64.fetch, BitVec.ofNat_eq_ofNat, BitVec.add_assoc, BitVec.reduceAdd, h4, h5, h6, h7]; decide
  have d0 : A64.decodeWord 0x58000051 = some (.ldrLit 17 2) := by decide
  have d4 : A64.decodeWord 0xd61f0220 = some (.br 17) := by decide
  have e8 : BitVec.signExtend 64 ((2 : BitVec 19) ++ (0 : BitVec 2)) = 8 := by decide
  simp only [A64.steps, A64.step, hmem, hpc, f0, d0, Option.bind_some, A64.exec, A64.Cpu.set, e8, hq, f4, d4]
  simp only [Option.some.injEq, A64.Cpu.mk.injEq, and_true]
  constructor
  · simp [A64.Cpu.get]
  · funext i
    have : (i.val = BitVec.toNat (17 : BitVec 5)) ↔ i = 17 := by
      constructor
      · intro h; apply Fin.ext; rw [h]; rfl
      · intro h; subst h; decide
    simp only [this]

example : ∃ s : A64.Cpu, s.pc = 0x400000 ∧
    ∃ s', A64.steps 2 s = some s' ∧ s'.pc = 0xffff00001238 ∧ s'.x 0 = 7 :=
  ⟨⟨0x400000, fun _ => 7, installEntry (fun _ => 0x55) .aarch64 0x400000 0xffff00001238⟩, rfl,
   _, C02_a64_redirect (fun _ => 0x55) 0x400000 0xffff00001238 _ rfl rfl, rfl, by simp⟩

end Ulp
