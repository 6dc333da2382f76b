/-
C59: The stubs of the function tracer leave the traced function's registers, stack
and memory as they were, and hand the hook what its declaration says.

Words used below.  `s` is the state at the first instruction of the stub, `f` any
hook (a function from the state at its entry to the state at its return), `ra` the
address after the call of the hook in the stub, `c` the state at the hook's entry
and `t` the state where the stub goes on to.  The hook is only assumed to keep the
platform's calling convention (`Sysv`, `Aapcs`): callee-saved registers, stack
pointer, and the stack of its callers.

The full claim is that all the registers an argument or a return value can be in
are kept; see the theorems at the end of each part for those that are not.
-/
import Verif.Proof.Mcount
namespace Ulp.Mcount

namespace X86
open X86Asm Reg

/-- What the hook finds when a traced function was entered with state `s` at the
first instruction of the stub. -/
structure AtEntry (s c : Cpu) : Prop where
  /-- the first argument is where the traced function's return address is -/
  parent : c.reg rdi = s.reg rbp + 8
  /-- the second is the place in the traced function the stub was called from -/
  child : c.reg rsi = ldq s.mem (s.reg rsp)
  /-- the third points at the six integer arguments, as `struct mcount_regs` -/
  args : (List.range 6).map (fun i => ldq c.mem (c.reg rdx + BitVec.ofNat 64 (8 * i))) =
    [s.reg r9, s.reg r8, s.reg rcx, s.reg rdx, s.reg rsi, s.reg rdi]
  /-- the stack is aligned as the convention asks -/
  aligned : (c.reg rsp + 8).toNat % 16 = 0
  /-- memory is written only in the 88 bytes below the stack pointer -/
  frame : ∀ x, 88 ≤ (x - (s.reg rsp - 88)).toNat → c.mem x = s.mem x

/-- `_ftrace_mcount` on x86_64: it returns to its caller with every register except
`r10` and `r11` kept, and the hook's memory.  Missing: `r10` (the static chain) and
the vector argument registers. -/
theorem C59_x86_entry_partial (f : Cpu → Cpu) (ra : BitVec 64) (s : Cpu) :
    ∃ c, atCall ra entry s = some c ∧ AtEntry s c ∧
      (Sysv (s.reg rsp + 8) c (f c) →
        ∃ t, run f ra entry s = some (ldq s.mem (s.reg rsp), t) ∧
          t.reg rsp = s.reg rsp + 8 ∧
          (∀ r, r ≠ rsp → r ≠ r10 → r ≠ r11 → t.reg r = s.reg r) ∧
          t.xmm = (f c).xmm ∧ t.mem = (f c).mem) := by
  obtain ⟨c, d, hd, hal, hc, hrun, hrsp, hrdi, hrsi, hrdx, hsav, m1, m2, m3, m4, m5, m6, m7, m8, hfr⟩ :=
    entry_call f ra s
  refine ⟨c, hc, ⟨hrdi, hrsi, ?_, ?_, hfr⟩, ?_⟩
  · generalize s.reg rsp = R at *
    simp only [List.range, List.range.loop, List.map_cons, List.map_nil, hrdx]
    rw [← m3, ← m4, ← m5, ← m6, ← m7, ← m8]
    simp only [List.cons.injEq, and_true]
    refine ⟨?_, ?_, ?_, ?_, ?_, ?_⟩ <;> (apply ldq_addr; grind)
  · rw [hrsp]
    generalize s.reg rsp - 48 - d = Q at *
    bv_omega
  · intro h
    rw [hrun]
    have hu := h.saved
    have hsp := h.sp
    have hst := h.stack
    generalize f c = u at *
    rw [hrsp] at hsp hst
    have htop : ldq c.mem (s.reg rsp) = ldq s.mem (s.reg rsp) := by
      apply ldq_congr
      intro x hx
      apply hfr
      generalize s.reg rsp = R at *
      rw [show x - (R - 88) = (x - R) + 88 by grind]
      generalize x - R = y at *
      bv_omega
    have keep : ∀ a : BitVec 64, a.toNat ≤ 48 → ldq u.mem (s.reg rsp - a) = ldq c.mem (s.reg rsp - a) := by
      intro a ha
      apply ldq_frame hst
      generalize s.reg rsp = R at *
      rw [show R - a - (R - 48 - d - 24 + 8) = 64 + d - a by grind,
        show R + 8 - (R - 48 - d - 24 + 8) = 72 + d by grind]
      bv_omega
    have keep' : ∀ a : BitVec 64, a.toNat = 8 ∨ a.toNat = 16 →
        ldq u.mem (s.reg rsp - 48 - d - a) = ldq c.mem (s.reg rsp - 48 - d - a) := by
      intro a ha
      apply ldq_frame hst
      generalize s.reg rsp = R at *
      rw [show R - 48 - d - a - (R - 48 - d - 24 + 8) = 16 - a by grind,
        show R + 8 - (R - 48 - d - 24 + 8) = 72 + d by grind]
      bv_omega
    rw [← keep' _ (by decide)] at m1 m2
    rw [← keep _ (by decide)] at m3 m4 m5 m6 m7 m8
    rw [show s.reg rsp = s.reg rsp - 0 by grind, ← keep _ (by decide),
      show s.reg rsp - 0 = s.reg rsp by grind] at htop
    have e1 : u.reg rsp = s.reg rsp - 48 - d - 16 := by rw [hsp]; grind
    have e2 : u.reg rsp + 8 = s.reg rsp - 48 - d - 8 := by rw [hsp]; grind
    simp only [entryTail, entry, List.drop, run, exec, Cpu.set, reduceCtorEq, if_false, if_true, e1]
    rw [e1] at e2
    simp only [e2, m1, m2]
    generalize hR : s.reg rsp = R at *
    have e : R - 48 + 0 = R - 48 ∧ R - 48 + 8 = R - 40 ∧ R - 48 + 16 = R - 32 ∧ R - 48 + 24 = R - 24 ∧
        R - 48 + 32 = R - 16 ∧ R - 48 + 40 = R - 8 ∧ R - 48 + 48 = R := by
      refine ⟨?_, ?_, ?_, ?_, ?_, ?_, ?_⟩ <;> grind
    obtain ⟨f0, f1, f2, f3, f4, f5, f6⟩ := e
    simp only [f0, f1, f2, f3, f4, f5, f6, htop, m3, m4, m5, m6, m7, m8]
    refine ⟨_, rfl, by simp, ?_, rfl, rfl⟩
    intro r h1 h2 h3
    cases r <;> simp at h1 h2 h3 ⊢
    all_goals rw [hu _ (by simp), hsav _ (by simp)]

/-- What the hook finds when a traced function has returned with state `s`. -/
structure AtExit (s c : Cpu) : Prop where
  /-- the argument points at the return values: `rax`, `rdx`, `xmm0` -/
  vals : ldq c.mem (c.reg rdi) = s.reg rax ∧ ldq c.mem (c.reg rdi + 8) = s.reg rdx ∧
    ldq c.mem (c.reg rdi + 24) ++ ldq c.mem (c.reg rdi + 16) = s.xmm 0
  aligned : (c.reg rsp + 8).toNat % 16 = 0
  frame : ∀ x, 88 ≤ (x - (s.reg rsp - 88)).toNat → c.mem x = s.mem x

/-- `_ftrace_mcount_return` on x86_64: it goes on where the hook says, with the stack
pointer and the registers `rax`, `rdx` and `xmm0` as the traced function left them.
Missing: `xmm1`. -/
theorem C59_x86_return_partial (f : Cpu → Cpu) (ra : BitVec 64) (s : Cpu) :
    ∃ c, atCall ra exit s = some c ∧ AtExit s c ∧
      (Sysv (s.reg rsp) c (f c) →
        ∃ t, run f ra exit s = some ((f c).reg rax, t) ∧
          (∀ r, r ∈ [rax, rdx, rdi, rsp, rbx, rbp, r12, r13, r14, r15] → t.reg r = s.reg r) ∧
          t.xmm 0 = s.xmm 0 ∧ (∀ i, i ≠ 0 → t.xmm i = (f c).xmm i) ∧
          (∀ x, 8 ≤ (x - (s.reg rsp - 8)).toNat → t.mem x = (f c).mem x)) := by
  obtain ⟨c, d, hd, hal, hc, hrun, hrsp, hrdi, hsav, m1, m2, m3, m4, m5, m6, hfr⟩ := exit_call f ra s
  have e : ∀ R : BitVec 64, R - 48 + 0 = R - 48 ∧ R - 48 + 8 = R - 40 ∧ R - 48 + 16 = R - 32 ∧
      R - 32 + 8 = R - 24 ∧ R - 48 + 24 = R - 24 ∧ R - 48 + 32 = R - 16 ∧ R - 48 + 40 = R - 8 ∧
      R - 8 + 8 = R := by
    intro R
    refine ⟨?_, ?_, ?_, ?_, ?_, ?_, ?_, ?_⟩ <;> grind
  obtain ⟨f0, f1, f2, f3, f4, f5, f6, f7⟩ := e (s.reg rsp)
  refine ⟨c, hc, ⟨?_, ?_, hfr⟩, ?_⟩
  · rw [hrdi, f1, f2, f4, m2, m3, m4, m5, halves]
    exact ⟨rfl, rfl, rfl⟩
  · rw [hrsp]
    generalize s.reg rsp - 48 - d = Q at *
    bv_omega
  · intro h
    rw [hrun]
    have hu := h.saved
    have hsp := h.sp
    have hst := h.stack
    generalize f c = u at *
    rw [hrsp] at hsp hst
    have keep : ∀ a : BitVec 64, 8 ≤ a.toNat → a.toNat ≤ 48 →
        ldq u.mem (s.reg rsp - a) = ldq c.mem (s.reg rsp - a) := by
      intro a ha ha'
      apply ldq_frame hst
      generalize s.reg rsp = R at *
      rw [show R - a - (R - 48 - d - 24 + 8) = 64 + d - a by grind,
        show R - (R - 48 - d - 24 + 8) = 64 + d by grind]
      bv_omega
    have keep' : ldq u.mem (s.reg rsp - 48 - d - 16) = ldq c.mem (s.reg rsp - 48 - d - 16) := by
      apply ldq_frame hst
      generalize s.reg rsp = R at *
      rw [show R - 48 - d - 16 - (R - 48 - d - 24 + 8) = 0 by grind,
        show R - (R - 48 - d - 24 + 8) = 64 + d by grind]
      bv_omega
    rw [← keep'] at m1
    rw [← keep _ (by decide) (by decide)] at m2 m3 m4 m5 m6
    have e1 : u.reg rsp + 0 = s.reg rsp - 48 - d - 16 := by rw [hsp]; grind
    simp only [exitTail, exit, List.drop, run, exec, Cpu.set, reduceCtorEq, if_false, if_true, e1, m1]
    generalize hR : s.reg rsp = R at *
    simp only [f0, f1, f2, f3, f5, f6, f7]
    simp (disch := decide) only [ldq_stq, ldq_stq_off, m2, m3, m4, m5, m6, halves]
    refine ⟨_, rfl, ?_, by simp, ?_, ?_⟩
    · intro r hr
      simp only [List.mem_cons, List.not_mem_nil, or_false] at hr
      rcases hr with h | h | h | h | h | h | h | h | h | h <;> subst h <;> simp [hR]
      all_goals rw [hu _ (by simp), hsav _ (by simp)]
    · intro i hi
      simp [hi]
    · intro x hx
      exact stq_out _ _ _ _ hx

/-- A hook that keeps the convention and uses vector registers and `r10`. -/
def vecHook (c : Cpu) : Cpu :=
  { (c.set rsp (c.reg rsp + 8)).set r10 0 with xmm := fun _ => 0 }

theorem vecHook_sysv (top : Addr) (c : Cpu) : Sysv top c (vecHook c) := by
  refine ⟨?_, by simp [vecHook, Cpu.set], fun x _ => rfl⟩
  intro r hr
  rcases hr with h | h | h | h | h | h <;> subst h <;> rfl

/-- Finding: a hook that keeps the convention changes a vector argument of the traced
function, whatever the state; and the register of the static chain. -/
theorem C59_x86_entry_vector_lost (ra : BitVec 64) (s : Cpu) :
    ∃ p t, run vecHook ra entry s = some (p, t) ∧ (∀ i, t.xmm i = 0) := by
  obtain ⟨c, -, -, h⟩ := C59_x86_entry_partial vecHook ra s
  obtain ⟨t, h1, -, -, h2, -⟩ := h (vecHook_sysv _ _)
  exact ⟨_, t, h1, fun i => by rw [h2]; rfl⟩

/-- Finding: and the second vector register of a return value. -/
theorem C59_x86_return_vector_lost (ra : BitVec 64) (s : Cpu) :
    ∃ p t, run vecHook ra exit s = some (p, t) ∧ t.xmm 0 = s.xmm 0 ∧ t.xmm 1 = 0 := by
  obtain ⟨c, -, -, h⟩ := C59_x86_return_partial vecHook ra s
  obtain ⟨t, h1, -, h2, h3, -⟩ := h (vecHook_sysv _ _)
  exact ⟨_, t, h1, h2, by rw [h3 1 (by decide)]; rfl⟩

theorem entry_xmm (ra : BitVec 64) (s c : Cpu) (h : atCall ra entry s = some c) : c.xmm = s.xmm := by
  cases h
  rfl

theorem shipped_sysv (top : Addr) (c : Cpu) : Sysv top c (shippedHook c) := by
  refine ⟨?_, by simp [shippedHook, Cpu.set], fun x _ => rfl⟩
  intro r hr
  rcases hr with h | h | h | h | h | h <;> subst h <;> rfl

/-- With the hook that is shipped, entering a traced function changes nothing that the function
can see: it goes on behind the call with its stack pointer, its arguments, vector registers
included, and its memory. -/
theorem C59_x86_shipped_entry (ra : BitVec 64) (s : Cpu) :
    ∃ t, run shippedHook ra entry s = some (ldq s.mem (s.reg rsp), t) ∧ t.reg rsp = s.reg rsp + 8 ∧
      (∀ r, r ≠ rsp → r ≠ r10 → r ≠ r11 → t.reg r = s.reg r) ∧ t.xmm = s.xmm ∧
      ∀ x, 88 ≤ (x - (s.reg rsp - 88)).toNat → t.mem x = s.mem x := by
  obtain ⟨c, hc, he, h⟩ := C59_x86_entry_partial shippedHook ra s
  obtain ⟨t, h1, h2, h3, h4, h5⟩ := h (shipped_sysv _ _)
  refine ⟨t, h1, h2, h3, ?_, fun x hx => ?_⟩
  · rw [h4]
    exact entry_xmm ra s c hc
  · rw [h5]
    exact he.frame x hx

/-- Finding: with the hook that is shipped, a traced function whose return goes through the stub
returns to address 0, whatever the state. -/
theorem C59_x86_shipped_return (ra : BitVec 64) (s : Cpu) :
    ∃ t, run shippedHook ra exit s = some (0, t) := by
  obtain ⟨c, -, -, h⟩ := C59_x86_return_partial shippedHook ra s
  obtain ⟨t, h1, -⟩ := h (shipped_sysv _ _)
  exact ⟨t, h1⟩

/-- A state in a traced function, with a stack pointer that is not aligned. -/
def exState : Cpu :=
  { reg := fun r => match r with
      | rsp => 0x7ffffff8 | rbp => 0x80000040 | rdi => 1 | rsi => 2 | rdx => 3 | rcx => 4 | r8 => 5 | r9 => 6
      | rax => 7 | rbx => 8 | _ => 9
    xmm := fun i => BitVec.ofNat 128 (i.val + 100)
    mem := stq (fun _ => 0) 0x7ffffff8 0x401136 }

/-- A non-trivial case: the stub runs and comes back to the traced function. -/
example : ∃ t, run vecHook 0x1234 entry exState = some (0x401136, t) ∧ t.reg rsp = 0x80000000 ∧
    t.reg rdi = 1 ∧ t.reg r9 = 6 ∧ t.reg rax = 7 ∧ t.reg rbx = 8 := by
  obtain ⟨c, -, -, h⟩ := C59_x86_entry_partial vecHook 0x1234 exState
  obtain ⟨t, h1, h2, h3, -, -⟩ := h (vecHook_sysv _ _)
  refine ⟨t, ?_, h2, h3 _ (by decide) (by decide) (by decide), h3 _ (by decide) (by decide) (by decide),
    h3 _ (by decide) (by decide) (by decide), h3 _ (by decide) (by decide) (by decide)⟩
  rw [h1]
  congr 2

end X86

namespace A64
open A64Asm
open X86Asm (ldq)

/-- What the hook finds when a traced function was entered with state `s` at the
first instruction of the stub. -/
structure AtEntry (s c : Cpu) : Prop where
  /-- the first argument is where the traced function's return address is -/
  parent : c.x 0 = s.x 29 + 8
  /-- the second is the place in the traced function the stub was called from -/
  child : c.x 1 = s.x 30
  /-- the third points at the eight integer arguments, as `struct mcount_regs` -/
  args : (List.range 8).map (fun i => ldq c.mem (c.x 2 + BitVec.ofNat 64 (8 * i))) =
    [s.x 0, s.x 1, s.x 2, s.x 3, s.x 4, s.x 5, s.x 6, s.x 7]
  /-- the stack pointer stays aligned -/
  aligned : s.sp.toNat % 16 = 0 → c.sp.toNat % 16 = 0
  /-- memory is written only in the 96 bytes below the stack pointer -/
  frame : ∀ x, 96 ≤ (x - (s.sp - 96)).toNat → c.mem x = s.mem x

/-- `_ftrace_mcount` on aarch64.  Missing: `x9`-`x17`, which no argument is in, and
the vector argument registers. -/
theorem C59_a64_entry_partial (f : Cpu → Cpu) (ra : BitVec 64) (s : Cpu) :
    ∃ c, atCall ra entry s = some c ∧ AtEntry s c ∧
      (Aapcs s.sp c (f c) →
        ∃ t, run f ra entry s = some (s.x 30, t) ∧ t.sp = s.sp ∧
          (∀ r : Fin 31, r ≤ 8 ∨ 18 ≤ r → t.x r = s.x r) ∧
          t.q = (f c).q ∧ t.mem = (f c).mem) := by
  obtain ⟨c, hc, hrun, hsp, h0, h1, h2, h30, h29, hsav, m0, m1, m2, m3, m4, m5, m6, m7, m8, m18, m29, m30,
    hfr⟩ := entry_call f ra s
  refine ⟨c, hc, ⟨h0, h1, ?_, ?_, hfr⟩, ?_⟩
  · generalize s.sp = S at *
    simp only [List.range, List.range.loop, List.map_cons, List.map_nil, h2]
    rw [← m0, ← m1, ← m2, ← m3, ← m4, ← m5, ← m6, ← m7]
    simp only [List.cons.injEq, and_true]
    refine ⟨?_, ?_, ?_, ?_, ?_, ?_, ?_, ?_⟩ <;> (apply ldq_addr; grind)
  · intro h
    rw [hsp]
    bv_omega
  · intro h
    rw [hrun]
    have hu := h.saved
    have hus := h.sp
    have hst := h.stack
    generalize f c = u at *
    rw [hsp] at hus hst
    have keep : ∀ a : BitVec 64, 8 ≤ a.toNat → a.toNat ≤ 96 →
        ldq u.mem (s.sp - a) = ldq c.mem (s.sp - a) := by
      intro a ha ha'
      apply ldq_frame hst
      generalize s.sp = S at *
      rw [show S - a - (S - 96) = 96 - a by grind, show S - (S - 96) = 96 by grind]
      bv_omega
    rw [← keep _ (by decide) (by decide)] at m0 m1 m2 m3 m4 m5 m6 m7 m8 m18 m29 m30
    obtain ⟨a1, a2, a3, a4, a5, a6⟩ := above s.sp
    obtain ⟨o1, o2, o3, o4, o5, o6⟩ := odd s.sp
    obtain ⟨ux, uS, uq, um⟩ := u
    dsimp only at hus m0 m1 m2 m3 m4 m5 m6 m7 m8 m18 m29 m30
    subst hus
    simp -implicitDefEqProofs only [entryTail, entry, List.drop, steps, a1, a2, a3, a4, a5, a6, o1, o2, o3, o4,
      o5, o6, m0, m1, m2, m3, m4, m5, m6, m7, m8, m18, m29, m30]
    simp (disch := decide) only [upd_self, upd_ne]
    refine ⟨_, rfl, rfl, ?_, rfl, rfl⟩
    intro r hr
    by_cases hk : 19 ≤ r ∧ r ≤ 28
    · have n : ∀ k : Fin 31, (k < 19 ∨ 28 < k) → r ≠ k := by
        intro k hk h
        subst h
        omega
      simp only [upd_ne _ _ _ _ (n 30 (by decide)), upd_ne _ _ _ _ (n 2 (by decide)),
        upd_ne _ _ _ _ (n 1 (by decide)), upd_ne _ _ _ _ (n 0 (by decide)),
        upd_ne _ _ _ _ (n 29 (by decide)), upd_ne _ _ _ _ (n 3 (by decide)),
        upd_ne _ _ _ _ (n 4 (by decide)), upd_ne _ _ _ _ (n 5 (by decide)),
        upd_ne _ _ _ _ (n 6 (by decide)), upd_ne _ _ _ _ (n 7 (by decide)),
        upd_ne _ _ _ _ (n 8 (by decide)), upd_ne _ _ _ _ (n 18 (by decide))]
      exact (hu r hk.1 (by omega)).trans (hsav r hk.1 hk.2)
    · have : r = 0 ∨ r = 1 ∨ r = 2 ∨ r = 3 ∨ r = 4 ∨ r = 5 ∨ r = 6 ∨ r = 7 ∨ r = 8 ∨ r = 18 ∨ r = 29 ∨
          r = 30 := by omega
      rcases this with h | h | h | h | h | h | h | h | h | h | h | h <;> subst h <;>
        simp (disch := decide) only [upd_self, upd_ne]

/-- What the hook finds when a traced function has returned with state `s`. -/
structure AtExit (s c : Cpu) : Prop where
  /-- the argument points at the return values `x0` and `x1` -/
  vals : ldq c.mem (c.x 0) = s.x 0 ∧ ldq c.mem (c.x 0 + 8) = s.x 1
  aligned : s.sp.toNat % 16 = 0 → c.sp.toNat % 16 = 0
  frame : ∀ x, 64 ≤ (x - (s.sp - 64)).toNat → c.mem x = s.mem x

/-- `_ftrace_mcount_return` on aarch64.  Missing: `q1`-`q3`. -/
theorem C59_a64_return_partial (f : Cpu → Cpu) (ra : BitVec 64) (s : Cpu) :
    ∃ c, atCall ra exit s = some c ∧ AtExit s c ∧
      (Aapcs s.sp c (f c) →
        ∃ t, run f ra exit s = some ((f c).x 0, t) ∧ t.sp = s.sp ∧
          (∀ r : Fin 31, r ≤ 1 ∨ r = 8 ∨ 18 ≤ r → t.x r = s.x r) ∧
          t.q 0 = s.q 0 ∧ (∀ i, i ≠ 0 → t.q i = (f c).q i) ∧ t.mem = (f c).mem) := by
  obtain ⟨c, hc, hrun, hsp, h0, hsav, m8, m18, mq0, mq1, m0, m1, m29, m30, hfr⟩ := exit_call f ra s
  obtain ⟨a1, a2, a3, a4, a5, a6⟩ := above s.sp
  obtain ⟨o1, o2, o3, o4, o5, o6⟩ := odd s.sp
  refine ⟨c, hc, ⟨?_, ?_, hfr⟩, ?_⟩
  · rw [h0, o5]
    exact ⟨m0, m1⟩
  · intro h
    rw [hsp]
    bv_omega
  · intro h
    rw [hrun]
    have hu := h.saved
    have hus := h.sp
    have hst := h.stack
    generalize f c = u at *
    rw [hsp] at hus hst
    have keep : ∀ a : BitVec 64, 8 ≤ a.toNat → a.toNat ≤ 64 →
        ldq u.mem (s.sp - a) = ldq c.mem (s.sp - a) := by
      intro a ha ha'
      apply ldq_frame hst
      generalize s.sp = S at *
      rw [show S - a - (S - 64) = 64 - a by grind, show S - (S - 64) = 64 by grind]
      bv_omega
    rw [← keep _ (by decide) (by decide)] at m0 m1 mq0 mq1 m8 m18 m29 m30
    obtain ⟨ux, uS, uq, um⟩ := u
    dsimp only at hus m0 m1 mq0 mq1 m8 m18 m29 m30
    subst hus
    simp -implicitDefEqProofs only [exitTail, exit, List.drop, steps, a3, a4, a5, a6, o3, o4, o5, o6, m0, m1,
      m8, mq0, mq1, m18, m29, m30, X86.halves]
    simp (disch := decide) only [upd_self, upd_ne]
    refine ⟨_, rfl, rfl, ?_, upd_self uq 0 (s.q 0), ?_, rfl⟩
    · intro r hr
      by_cases hk : 19 ≤ r ∧ r ≤ 28
      · have n : ∀ k : Fin 31, (k < 19 ∨ 28 < k) → r ≠ k := by
          intro k hk h
          subst h
          omega
        simp only [upd_ne _ _ _ _ (n 30 (by decide)), upd_ne _ _ _ _ (n 1 (by decide)),
          upd_ne _ _ _ _ (n 0 (by decide)), upd_ne _ _ _ _ (n 29 (by decide)),
          upd_ne _ _ _ _ (n 8 (by decide)), upd_ne _ _ _ _ (n 16 (by decide)),
          upd_ne _ _ _ _ (n 18 (by decide))]
        exact (hu r hk.1 (by omega)).trans (hsav r hk.1 (by omega))
      · have : r = 0 ∨ r = 1 ∨ r = 8 ∨ r = 18 ∨ r = 29 ∨ r = 30 := by omega
        rcases this with h | h | h | h | h | h <;> subst h <;>
          simp (disch := decide) only [upd_self, upd_ne]
    · intro i hi
      exact upd_ne _ _ _ _ hi

/-- A hook that keeps the convention and uses vector registers. -/
def vecHook (c : Cpu) : Cpu := { c with q := fun _ => 0 }

theorem vecHook_aapcs (top : Addr) (c : Cpu) : Aapcs top c (vecHook c) :=
  ⟨fun _ _ _ => rfl, rfl, fun _ _ => rfl⟩

/-- Finding: a hook that keeps the convention changes the vector arguments. -/
theorem C59_a64_entry_vector_lost (ra : BitVec 64) (s : Cpu) :
    ∃ p t, run vecHook ra entry s = some (p, t) ∧ (∀ i, t.q i = 0) := by
  obtain ⟨c, -, -, h⟩ := C59_a64_entry_partial vecHook ra s
  obtain ⟨t, h1, -, -, h2, -⟩ := h (vecHook_aapcs _ _)
  exact ⟨_, t, h1, fun i => by rw [h2]; rfl⟩

/-- Finding: and all vector registers of a return value but the first. -/
theorem C59_a64_return_vector_lost (ra : BitVec 64) (s : Cpu) :
    ∃ p t, run vecHook ra exit s = some (p, t) ∧ t.q 0 = s.q 0 ∧ (∀ i, i ≠ 0 → t.q i = 0) := by
  obtain ⟨c, -, -, h⟩ := C59_a64_return_partial vecHook ra s
  obtain ⟨t, h1, -, -, h2, h3, -⟩ := h (vecHook_aapcs _ _)
  exact ⟨_, t, h1, h2, fun i hi => by rw [h3 i hi]; rfl⟩

/-- The instruction writes a vector register. -/
def writesQ : Insn → Bool
  | .ldrqPost _ _ => true
  | _ => false

theorem atCall_q (ra : BitVec 64) (l : List Insn) (s c : Cpu) (hl : ∀ i ∈ l, writesQ i = false)
    (h : atCall ra l s = some c) : c.q = s.q := by
  induction l generalizing s with
  | nil => cases h
  | cons i l ih =>
    have hi := hl i (List.mem_cons_self ..)
    have hl' := fun j hj => hl j (List.mem_cons_of_mem _ hj)
    cases i with
    | br a => cases h
    | bl => cases h; rfl
    | ldrqPost a n => cases hi
    | _ => exact (ih (exec s _) hl' h).trans rfl

theorem entry_q (ra : BitVec 64) (s c : Cpu) (h : atCall ra entry s = some c) : c.q = s.q :=
  atCall_q ra entry s c (by decide) h

theorem shipped_aapcs (top : Addr) (c : Cpu) : Aapcs top c (shippedHook c) := by
  refine ⟨fun r h1 _ => ?_, rfl, fun _ _ => rfl⟩
  have : r ≠ 0 := by intro h; subst h; exact absurd h1 (by decide)
  exact if_neg this

/-- With the hook that is shipped, entering a traced function changes nothing that the function
can see. -/
theorem C59_a64_shipped_entry (ra : BitVec 64) (s : Cpu) :
    ∃ t, run shippedHook ra entry s = some (s.x 30, t) ∧ t.sp = s.sp ∧
      (∀ r : Fin 31, r ≤ 8 ∨ 18 ≤ r → t.x r = s.x r) ∧ t.q = s.q ∧
      ∀ x, 96 ≤ (x - (s.sp - 96)).toNat → t.mem x = s.mem x := by
  obtain ⟨c, hc, he, h⟩ := C59_a64_entry_partial shippedHook ra s
  obtain ⟨t, h1, h2, h3, h4, h5⟩ := h (shipped_aapcs _ _)
  refine ⟨t, h1, h2, h3, ?_, fun x hx => ?_⟩
  · rw [h4]
    exact entry_q ra s c hc
  · rw [h5]
    exact he.frame x hx

/-- Finding: with the hook that is shipped, a traced function whose return goes through the stub
returns to address 0. -/
theorem C59_a64_shipped_return (ra : BitVec 64) (s : Cpu) :
    ∃ t, run shippedHook ra exit s = some (0, t) := by
  obtain ⟨c, -, -, h⟩ := C59_a64_return_partial shippedHook ra s
  obtain ⟨t, h1, -⟩ := h (shipped_aapcs _ _)
  exact ⟨t, h1⟩

/-- A state in a traced function. -/
def exState : Cpu :=
  { x := fun r => BitVec.ofNat 64 (1000 + r.val)
    sp := 0xfffff000, q := fun i => BitVec.ofNat 128 (i.val + 100), mem := fun _ => 0 }

/-- A non-trivial case. -/
example : ∃ t, run vecHook 0x1234 entry exState = some (1030, t) ∧ t.sp = 0xfffff000 ∧
    t.x 7 = 1007 ∧ t.x 18 = 1018 ∧ t.x 29 = 1029 := by
  obtain ⟨c, -, -, h⟩ := C59_a64_entry_partial vecHook 0x1234 exState
  obtain ⟨t, h1, h2, h3, -, -⟩ := h (vecHook_aapcs _ _)
  exact ⟨t, h1, h2, h3 _ (by decide), h3 _ (by decide), h3 _ (by decide)⟩

end A64
end Ulp.Mcount
