/- Lemmas about quadword loads and stores, for the tracing stubs. -/
import Verif.Proof.Mem
import Verif.Model.Mcount
namespace Ulp.Mcount
open X86Asm (ldq stq)

theorem ldq_stq (m : Mem) (a : Addr) (v : BitVec 64) : ldq (stq m a v) a = v :=
  load8_write m a v

theorem stq_out (m : Mem) (a : Addr) (v : BitVec 64) (x : Addr) (h : 8 ≤ (x - a).toNat) :
    stq m a v x = m x := by
  unfold stq
  exact Mem.write_out _ _ _ _ (by simpa using h)

theorem ldq_congr (m m' : Mem) (a : Addr) (h : ∀ x : Addr, (x - a).toNat < 8 → m x = m' x) :
    ldq m a = ldq m' a := by
  unfold ldq Mem.load
  rw [Mem.read_congr m m' a 8]
  intro i hi
  exact h _ (by rw [add_ofNat_sub_toNat _ _ (by omega)]; exact hi)

theorem ldq_stq_ne (m : Mem) (a b : Addr) (v : BitVec 64) (h : 8 ≤ (a - b).toNat)
    (h' : 8 ≤ (b - a).toNat) : ldq (stq m a v) b = ldq m b := by
  apply ldq_congr
  intro x hx
  apply stq_out
  bv_omega

/-- Aligning down to sixteen bytes takes off at most fifteen. -/
theorem align16 (x : BitVec 64) :
    ∃ d : BitVec 64, d.toNat < 16 ∧ (x &&& 0xfffffffffffffff0) = x - d ∧ (x - d).toNat % 16 = 0 := by
  refine ⟨x &&& 15, ?_, ?_, ?_⟩
  · rw [BitVec.toNat_and]
    exact Nat.lt_of_le_of_lt Nat.and_le_right (by decide)
  · have h : (x &&& 0xfffffffffffffff0) + (x &&& 15) = x := by
      rw [BitVec.add_eq_or_of_and_eq_zero]
      · rw [← BitVec.and_or_distrib_left]
        rw [show ((0xfffffffffffffff0 : BitVec 64) ||| 15) = BitVec.allOnes 64 by decide]
        exact BitVec.and_allOnes
      · rw [show (x &&& 0xfffffffffffffff0) &&& (x &&& 15) =
            (x &&& x) &&& ((0xfffffffffffffff0 : BitVec 64) &&& 15) by ac_rfl]
        rw [show ((0xfffffffffffffff0 : BitVec 64) &&& 15) = 0#64 by decide]
        simp
    generalize (x &&& 15) = d at h
    bv_omega
  · have h : (x &&& 15).toNat = x.toNat % 16 := by
      rw [BitVec.toNat_and]
      exact Nat.and_two_pow_sub_one_eq_mod x.toNat 4
    have hx := x.isLt
    rw [BitVec.toNat_sub, h]
    omega

/-- Loads where a frame condition speaks about single bytes. -/
theorem ldq_frame {m m' : Mem} {lo : Addr} {n : Nat} (h : ∀ x : Addr, (x - lo).toNat < n → m' x = m x)
    (a : Addr) (ha : (a - lo).toNat + 8 ≤ n) : ldq m' a = ldq m a := by
  apply ldq_congr
  intro x hx
  exact h x (by bv_omega)

end Ulp.Mcount

namespace Ulp.Mcount
open X86Asm (ldq stq)

theorem ldq_stq_eq (m : Mem) (a b : Addr) (v : BitVec 64) (h : a = b) : ldq (stq m a v) b = v := by
  rw [h, ldq_stq]

theorem ldq_addr (m : Mem) (a b : Addr) (h : a = b) : ldq m a = ldq m b := by rw [h]

attribute [local irreducible] ldq stq

/-- Stores and loads at fixed distances below the same address. -/
theorem ldq_stq_off (m : Mem) (R a b v : BitVec 64) (h1 : 8 ≤ (b - a).toNat) (h2 : 8 ≤ (a - b).toNat) :
    ldq (stq m (R - a) v) (R - b) = ldq m (R - b) := by
  apply ldq_stq_ne
  · rw [show R - a - (R - b) = b - a by grind]; exact h1
  · rw [show R - b - (R - a) = a - b by grind]; exact h2

theorem ldq_stq_top (m : Mem) (R a v : BitVec 64) (h1 : 8 ≤ a.toNat) (h2 : 8 ≤ (-a).toNat) :
    ldq (stq m (R - a) v) R = ldq m R := by
  apply ldq_stq_ne
  · rw [show R - a - R = -a by grind]; exact h2
  · rw [show R - (R - a) = a by grind]; exact h1

/-- Stores below the aligned address, loads above it. -/
theorem ldq_stq_low (m : Mem) (R d a b v : BitVec 64) (hd : d.toNat < 16) (ha : 8 ≤ a.toNat)
    (ha' : a.toNat ≤ 24) (hb' : b.toNat ≤ 48) :
    ldq (stq m (R - 48 - d - a) v) (R - b) = ldq m (R - b) := by
  apply ldq_stq_ne
  · rw [show R - 48 - d - a - (R - b) = b - (48 + d + a) by grind]; bv_omega
  · rw [show R - b - (R - 48 - d - a) = 48 + d + a - b by grind]; bv_omega

theorem stq_out_off (m : Mem) (R a v x : BitVec 64) (h : 88 ≤ (x - (R - 88)).toNat)
    (ha : 8 ≤ a.toNat) (ha' : a.toNat ≤ 88) : stq m (R - a) v x = m x := by
  apply stq_out
  rw [show x - (R - a) = (x - (R - 88)) + (a - 88) by grind]
  generalize x - (R - 88) = y at h ⊢
  bv_omega

namespace X86
open X86Asm Reg

/-- The part of `entry` after the call. -/
def entryTail : List Insn := entry.drop 14
def exitTail : List Insn := exit.drop 10

theorem entry_call (f : Cpu → Cpu) (ra : BitVec 64) (s : Cpu) :
    ∃ c d, d.toNat < 16 ∧ (s.reg rsp - 48 - d).toNat % 16 = 0 ∧
      atCall ra entry s = some c ∧ run f ra entry s = run f ra entryTail (f c) ∧
      c.reg rsp = s.reg rsp - 48 - d - 24 ∧ c.reg rdi = s.reg rbp + 8 ∧
      c.reg rsi = ldq s.mem (s.reg rsp) ∧ c.reg rdx = s.reg rsp - 48 ∧
      (∀ r, r = rbx ∨ r = rbp ∨ r = r12 ∨ r = r13 ∨ r = r14 ∨ r = r15 → c.reg r = s.reg r) ∧
      ldq c.mem (s.reg rsp - 48 - d - 16) = s.reg rax ∧
      ldq c.mem (s.reg rsp - 48 - d - 8) = s.reg rsp - 48 ∧
      ldq c.mem (s.reg rsp - 48) = s.reg r9 ∧ ldq c.mem (s.reg rsp - 40) = s.reg r8 ∧
      ldq c.mem (s.reg rsp - 32) = s.reg rcx ∧ ldq c.mem (s.reg rsp - 24) = s.reg rdx ∧
      ldq c.mem (s.reg rsp - 16) = s.reg rsi ∧ ldq c.mem (s.reg rsp - 8) = s.reg rdi ∧
      (∀ x, 88 ≤ (x - (s.reg rsp - 88)).toNat → c.mem x = s.mem x) := by
  obtain ⟨d, hd, hand, hal⟩ := align16 (s.reg rsp - 48)
  simp only [atCall, entry, exec, Cpu.set, run, entryTail, List.drop]
  refine ⟨_, d, hd, hal, rfl, rfl, ?_⟩
  simp only [reduceCtorEq, if_false, if_true, hand]
  clear hand hal
  generalize s.reg rsp = R
  generalize s.reg rbp = B, s.reg r9 = a9, s.reg r8 = a8, s.reg rcx = ac, s.reg rdx = ad,
    s.reg rsi = asi, s.reg rdi = adi, s.reg rax = aa, s.mem = m
  have e : R - 48 + 0 = R - 48 ∧ R - 48 + 8 = R - 40 ∧ R - 48 + 16 = R - 32 ∧ R - 48 + 24 = R - 24 ∧
      R - 48 + 32 = R - 16 ∧ R - 48 + 40 = R - 8 ∧ R - 48 + 48 = R := by
    refine ⟨?_, ?_, ?_, ?_, ?_, ?_, ?_⟩ <;> grind
  obtain ⟨e0, e1, e2, e3, e4, e5, e6⟩ := e
  have e7 : R - 48 - d - 8 - 8 = R - 48 - d - 16 ∧ R - 48 - d - 16 - 8 = R - 48 - d - 24 := by
    generalize R - 48 - d = Q
    constructor <;> grind
  obtain ⟨e7, e8⟩ := e7
  simp only [e0, e1, e2, e3, e4, e5, e6, e7, e8]
  simp (disch := first | exact hd | decide) only [ldq_stq, ldq_stq_off, ldq_stq_top, ldq_stq_low,
    true_and, and_true]
  refine ⟨?_, ?_⟩
  · intro r hr
    rcases hr with h | h | h | h | h | h <;> subst h <;> rfl
  · intro x hx
    have e9 : ∀ a : BitVec 64, R - 48 - d - a = R - (48 + d + a) := by intro a; grind
    rw [e9, e9, e9]
    rw [stq_out_off _ _ _ _ _ hx (by bv_omega) (by bv_omega)]
    rw [stq_out_off _ _ _ _ _ hx (by bv_omega) (by bv_omega)]
    rw [stq_out_off _ _ _ _ _ hx (by bv_omega) (by bv_omega)]
    simp (disch := first | exact hx | decide) only [stq_out_off]

theorem exit_call (f : Cpu → Cpu) (ra : BitVec 64) (s : Cpu) :
    ∃ c d, d.toNat < 16 ∧ (s.reg rsp - 48 - d).toNat % 16 = 0 ∧
      atCall ra exit s = some c ∧ run f ra exit s = run f ra exitTail (f c) ∧
      c.reg rsp = s.reg rsp - 48 - d - 24 ∧ c.reg rdi = s.reg rsp - 48 ∧
      (∀ r, r = rbx ∨ r = rbp ∨ r = r12 ∨ r = r13 ∨ r = r14 ∨ r = r15 → c.reg r = s.reg r) ∧
      ldq c.mem (s.reg rsp - 48 - d - 16) = s.reg rsp - 48 ∧
      ldq c.mem (s.reg rsp - 48) = s.reg rax ∧ ldq c.mem (s.reg rsp - 40) = s.reg rdx ∧
      ldq c.mem (s.reg rsp - 32) = (s.xmm 0).extractLsb' 0 64 ∧
      ldq c.mem (s.reg rsp - 24) = (s.xmm 0).extractLsb' 64 64 ∧
      ldq c.mem (s.reg rsp - 16) = s.reg rdi ∧
      (∀ x, 88 ≤ (x - (s.reg rsp - 88)).toNat → c.mem x = s.mem x) := by
  obtain ⟨d, hd, hand, hal⟩ := align16 (s.reg rsp - 48)
  simp only [atCall, exit, exec, Cpu.set, run, exitTail, List.drop]
  refine ⟨_, d, hd, hal, rfl, rfl, ?_⟩
  simp only [reduceCtorEq, if_false, if_true, hand]
  clear hand hal
  generalize s.reg rsp = R
  generalize s.reg rdx = ad, s.reg rdi = adi, s.reg rax = aa, s.xmm 0 = ax, s.mem = m
  have e : R - 48 + 0 = R - 48 ∧ R - 48 + 8 = R - 40 ∧ R - 48 + 16 = R - 32 ∧ R - 32 + 8 = R - 24 ∧
      R - 48 + 32 = R - 16 := by
    refine ⟨?_, ?_, ?_, ?_, ?_⟩ <;> grind
  obtain ⟨e0, e1, e2, e3, e4⟩ := e
  have e7 : R - 48 - d - 16 + 0 = R - 48 - d - 16 ∧ R - 48 - d - 16 - 8 = R - 48 - d - 24 := by
    constructor <;> grind
  obtain ⟨e7, e8⟩ := e7
  simp only [e0, e1, e2, e3, e4, e7, e8]
  simp (disch := first | exact hd | decide) only [ldq_stq, ldq_stq_off, ldq_stq_top, ldq_stq_low,
    true_and, and_true]
  refine ⟨?_, ?_⟩
  · intro r hr
    rcases hr with h | h | h | h | h | h <;> subst h <;> rfl
  · intro x hx
    have e9 : ∀ a : BitVec 64, R - 48 - d - a = R - (48 + d + a) := by intro a; grind
    rw [e9, e9]
    rw [stq_out_off _ _ _ _ _ hx (by bv_omega) (by bv_omega)]
    rw [stq_out_off _ _ _ _ _ hx (by bv_omega) (by bv_omega)]
    simp (disch := first | exact hx | decide) only [stq_out_off]

theorem halves (v : BitVec 128) : v.extractLsb' 64 64 ++ v.extractLsb' 0 64 = v := by
  apply BitVec.eq_of_getLsbD_eq
  intro i hi
  rw [BitVec.getLsbD_append]
  simp only [BitVec.getLsbD_extractLsb']
  by_cases h : i < 64
  · simp [h]
  · simp [h, show i - 64 < 64 by omega, show 64 + (i - 64) = i by omega]

end X86
namespace A64
open A64Asm

def entryTail : List Insn := entry.drop 12
def exitTail : List Insn := exit.drop 6

theorem below (S : BitVec 64) : S + -16 = S - 16 ∧ S - 16 + -16 = S - 32 ∧ S - 32 + -16 = S - 48 ∧
    S - 48 + -16 = S - 64 ∧ S - 64 + -16 = S - 80 ∧ S - 80 + -16 = S - 96 := by
  refine ⟨?_, ?_, ?_, ?_, ?_, ?_⟩ <;> grind

theorem above (S : BitVec 64) : S - 96 + 16 = S - 80 ∧ S - 80 + 16 = S - 64 ∧ S - 64 + 16 = S - 48 ∧
    S - 48 + 16 = S - 32 ∧ S - 32 + 16 = S - 16 ∧ S - 16 + 16 = S := by
  refine ⟨?_, ?_, ?_, ?_, ?_, ?_⟩ <;> grind

theorem odd (S : BitVec 64) : S - 96 + 8 = S - 88 ∧ S - 80 + 8 = S - 72 ∧ S - 64 + 8 = S - 56 ∧
    S - 48 + 8 = S - 40 ∧ S - 32 + 8 = S - 24 ∧ S - 16 + 8 = S - 8 := by
  refine ⟨?_, ?_, ?_, ?_, ?_, ?_⟩ <;> grind

theorem stq_out_n (n : BitVec 64) (m : Mem) (S a v x : BitVec 64) (h : n.toNat ≤ (x - (S - n)).toNat)
    (ha : 8 ≤ a.toNat) (ha' : a.toNat ≤ n.toNat) : stq m (S - a) v x = m x := by
  apply stq_out
  rw [show x - (S - a) = (x - (S - n)) + (a - n) by grind]
  generalize x - (S - n) = y at h ⊢
  bv_omega

/-- A register file with one register set. -/
def upd {n w} (x : Fin n → BitVec w) (a : Fin n) (v : BitVec w) : Fin n → BitVec w :=
  fun i => if i = a then v else x i

/-- One step at a time, on the parts of the state. -/
theorem steps (f : Cpu → Cpu) (ra : BitVec 64) (x : Fin 31 → BitVec 64) (p : BitVec 64)
    (q : Fin 32 → BitVec 128) (m : Mem) (l : List Insn) :
    (∀ a b n, run f ra (.stpPre a b n :: l) ⟨x, p, q, m⟩ =
      run f ra l ⟨x, p + n, q, stq (stq m (p + n) (x a)) (p + n + 8) (x b)⟩) ∧
    (∀ a b n, run f ra (.ldpPost a b n :: l) ⟨x, p, q, m⟩ =
      run f ra l ⟨upd (upd x a (ldq m p)) b (ldq m (p + 8)), p + n, q, m⟩) ∧
    (∀ a n, run f ra (.strqPre a n :: l) ⟨x, p, q, m⟩ =
      run f ra l ⟨x, p + n, q, stq (stq m (p + n) ((q a).extractLsb' 0 64)) (p + n + 8)
        ((q a).extractLsb' 64 64)⟩) ∧
    (∀ a n, run f ra (.ldrqPost a n :: l) ⟨x, p, q, m⟩ =
      run f ra l ⟨x, p + n, upd q a (ldq m (p + 8) ++ ldq m p), m⟩) ∧
    (∀ d a, run f ra (.mov d a :: l) ⟨x, p, q, m⟩ = run f ra l ⟨upd x d (x a), p, q, m⟩) ∧
    (∀ d, run f ra (.movFromSp d :: l) ⟨x, p, q, m⟩ = run f ra l ⟨upd x d p, p, q, m⟩) ∧
    (∀ d b, run f ra (.ldr d b :: l) ⟨x, p, q, m⟩ = run f ra l ⟨upd x d (ldq m (x b)), p, q, m⟩) ∧
    (∀ d a n, run f ra (.addi d a n :: l) ⟨x, p, q, m⟩ = run f ra l ⟨upd x d (x a + n), p, q, m⟩) ∧
    (∀ d n, run f ra (.addFromSp d n :: l) ⟨x, p, q, m⟩ = run f ra l ⟨upd x d (p + n), p, q, m⟩) ∧
    (run f ra (.bl :: l) ⟨x, p, q, m⟩ = run f ra l (f ⟨upd x 30 ra, p, q, m⟩)) ∧
    (∀ a, run f ra (.br a :: l) ⟨x, p, q, m⟩ = some (x a, ⟨x, p, q, m⟩)) := by
  refine ⟨?_, ?_, ?_, ?_, ?_, ?_, ?_, ?_, ?_, ?_, ?_⟩ <;> intros <;> rfl

theorem csteps (ra : BitVec 64) (x : Fin 31 → BitVec 64) (p : BitVec 64)
    (q : Fin 32 → BitVec 128) (m : Mem) (l : List Insn) :
    (∀ a b n, atCall ra (.stpPre a b n :: l) ⟨x, p, q, m⟩ =
      atCall ra l ⟨x, p + n, q, stq (stq m (p + n) (x a)) (p + n + 8) (x b)⟩) ∧
    (∀ a n, atCall ra (.strqPre a n :: l) ⟨x, p, q, m⟩ =
      atCall ra l ⟨x, p + n, q, stq (stq m (p + n) ((q a).extractLsb' 0 64)) (p + n + 8)
        ((q a).extractLsb' 64 64)⟩) ∧
    (∀ d a, atCall ra (.mov d a :: l) ⟨x, p, q, m⟩ = atCall ra l ⟨upd x d (x a), p, q, m⟩) ∧
    (∀ d, atCall ra (.movFromSp d :: l) ⟨x, p, q, m⟩ = atCall ra l ⟨upd x d p, p, q, m⟩) ∧
    (∀ d b, atCall ra (.ldr d b :: l) ⟨x, p, q, m⟩ = atCall ra l ⟨upd x d (ldq m (x b)), p, q, m⟩) ∧
    (∀ d a n, atCall ra (.addi d a n :: l) ⟨x, p, q, m⟩ = atCall ra l ⟨upd x d (x a + n), p, q, m⟩) ∧
    (∀ d n, atCall ra (.addFromSp d n :: l) ⟨x, p, q, m⟩ = atCall ra l ⟨upd x d (p + n), p, q, m⟩) ∧
    (atCall ra (.bl :: l) ⟨x, p, q, m⟩ = some ⟨upd x 30 ra, p, q, m⟩) := by
  refine ⟨?_, ?_, ?_, ?_, ?_, ?_, ?_, ?_⟩ <;> intros <;> rfl

theorem upd_self {n w} (x : Fin n → BitVec w) (a v) : upd x a v a = v := by simp [upd]
theorem upd_ne {n w} (x : Fin n → BitVec w) (a v b) (h : b ≠ a) : upd x a v b = x b := by simp [upd, h]

theorem entry_call (f : Cpu → Cpu) (ra : BitVec 64) (s : Cpu) :
    ∃ c, atCall ra entry s = some c ∧ run f ra entry s = run f ra entryTail (f c) ∧
      c.sp = s.sp - 96 ∧ c.x 0 = s.x 29 + 8 ∧ c.x 1 = s.x 30 ∧ c.x 2 = s.sp - 96 ∧ c.x 30 = ra ∧
      c.x 29 = s.sp - 16 ∧ (∀ r : Fin 31, 19 ≤ r → r ≤ 28 → c.x r = s.x r) ∧
      ldq c.mem (s.sp - 96) = s.x 0 ∧ ldq c.mem (s.sp - 88) = s.x 1 ∧
      ldq c.mem (s.sp - 80) = s.x 2 ∧ ldq c.mem (s.sp - 72) = s.x 3 ∧
      ldq c.mem (s.sp - 64) = s.x 4 ∧ ldq c.mem (s.sp - 56) = s.x 5 ∧
      ldq c.mem (s.sp - 48) = s.x 6 ∧ ldq c.mem (s.sp - 40) = s.x 7 ∧
      ldq c.mem (s.sp - 32) = s.x 8 ∧ ldq c.mem (s.sp - 24) = s.x 18 ∧
      ldq c.mem (s.sp - 16) = s.x 29 ∧ ldq c.mem (s.sp - 8) = s.x 30 ∧
      (∀ x, 96 ≤ (x - (s.sp - 96)).toNat → c.mem x = s.mem x) := by
  obtain ⟨x, S, q, m⟩ := s
  obtain ⟨b1, b2, b3, b4, b5, b6⟩ := below S
  obtain ⟨o1, o2, o3, o4, o5, o6⟩ := odd S
  simp -implicitDefEqProofs only [entry, entryTail, List.drop, steps, csteps, b1, b2, b3, b4, b5, b6, o1, o2,
    o3, o4, o5, o6]
  refine ⟨_, rfl, rfl, ?_⟩
  simp (disch := decide) only [upd_self, upd_ne]
  simp (disch := decide) only [ldq_stq, ldq_stq_off, true_and, and_true]
  refine ⟨?_, ?_⟩
  · intro r h1 h2
    have n : ∀ k : Fin 31, (k < 19 ∨ 28 < k) → r ≠ k := by
      intro k hk h
      subst h
      omega
    rw [upd_ne _ _ _ _ (n 30 (by decide)), upd_ne _ _ _ _ (n 2 (by decide)), upd_ne _ _ _ _ (n 1 (by decide)),
      upd_ne _ _ _ _ (n 0 (by decide)), upd_ne _ _ _ _ (n 0 (by decide)), upd_ne _ _ _ _ (n 29 (by decide))]
  · intro x hx
    have hx' : (96 : BitVec 64).toNat ≤ (x - (S - 96)).toNat := hx
    simp (disch := first | exact hx' | decide) only [stq_out_n 96]

theorem exit_call (f : Cpu → Cpu) (ra : BitVec 64) (s : Cpu) :
    ∃ c, atCall ra exit s = some c ∧ run f ra exit s = run f ra exitTail (f c) ∧
      c.sp = s.sp - 64 ∧ c.x 0 = s.sp - 32 ∧
      (∀ r : Fin 31, 19 ≤ r → r ≤ 29 → c.x r = s.x r) ∧
      ldq c.mem (s.sp - 64) = s.x 8 ∧ ldq c.mem (s.sp - 56) = s.x 18 ∧
      ldq c.mem (s.sp - 48) = (s.q 0).extractLsb' 0 64 ∧
      ldq c.mem (s.sp - 40) = (s.q 0).extractLsb' 64 64 ∧
      ldq c.mem (s.sp - 32) = s.x 0 ∧ ldq c.mem (s.sp - 24) = s.x 1 ∧
      ldq c.mem (s.sp - 16) = s.x 29 ∧ ldq c.mem (s.sp - 8) = s.x 30 ∧
      (∀ x, 64 ≤ (x - (s.sp - 64)).toNat → c.mem x = s.mem x) := by
  obtain ⟨x, S, q, m⟩ := s
  obtain ⟨b1, b2, b3, b4, b5, b6⟩ := below S
  obtain ⟨o1, o2, o3, o4, o5, o6⟩ := odd S
  have e : S - 64 + 32 = S - 32 := by grind
  simp -implicitDefEqProofs only [exit, exitTail, List.drop, steps, csteps, b1, b2, b3, b4, b5, b6, o1, o2,
    o3, o4, o5, o6, e]
  refine ⟨_, rfl, rfl, ?_⟩
  simp (disch := decide) only [upd_self, upd_ne]
  simp (disch := decide) only [ldq_stq, ldq_stq_off, true_and, and_true]
  refine ⟨?_, ?_⟩
  · intro r h1 h2
    have n : ∀ k : Fin 31, (k < 19 ∨ 29 < k) → r ≠ k := by
      intro k hk h
      subst h
      omega
    rw [upd_ne _ _ _ _ (n 30 (by decide)), upd_ne _ _ _ _ (n 0 (by decide))]
  · intro x hx
    have hx' : (64 : BitVec 64).toNat ≤ (x - (S - 64)).toNat := hx
    simp (disch := first | exact hx' | decide) only [stq_out_n 64]

end A64
end Ulp.Mcount
