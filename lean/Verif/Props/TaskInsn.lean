/-
C96, C97: replacing an instruction of another process, and searching for the call of a
tracing function (src/arch/aarch64/insn.c:16-47, 224-234, src/arch/aarch64/ftrace.c:20-47).
-/
import Verif.Props.TaskMem
namespace Ulp.TaskMem
open Ulp.TaskMemSpec
open Ulp.Ultask (memcpyFromTask memcpyToTask)

/-! ### C96 -/

theorem word_read (m : Mem) (a : Addr) : BitVec.ofNat 32 (leNat (m.read a 4)) = wordAt m a := by
  have e : m.read a 4 = [m a, m (a + 1), m (a + 2), m (a + 3)] := by
    simp [Mem.read, List.range_succ]
  rw [e]
  unfold wordAt
  generalize m a = b0
  generalize m (a + 1) = b1
  generalize m (a + 2) = b2
  generalize m (a + 3) = b3
  apply BitVec.eq_of_toNat_eq
  have h0 := b0.isLt; have h1 := b1.isLt; have h2 := b2.isLt; have h3 := b3.isLt
  simp only [leNat, BitVec.toNat_ofNat, BitVec.toNat_append]
  rw [← Nat.shiftLeft_add_eq_or_of_lt h2, ← Nat.shiftLeft_add_eq_or_of_lt h1,
    ← Nat.shiftLeft_add_eq_or_of_lt h0]
  simp only [Nat.shiftLeft_eq]
  omega

theorem word_write (m : Mem) (a : Addr) (w : BitVec 32) :
    wordAt (m.write a (leBytes 4 (w.setWidth 64))) a = w := by
  rw [← word_read]
  have := Mem.read_write_self m a (leBytes 4 (w.setWidth 64)) (by simp)
  rw [leBytes_length] at this
  rw [this, leNat_leBytes]
  apply BitVec.eq_of_toNat_eq
  have := w.isLt
  simp only [BitVec.toNat_ofNat, BitVec.toNat_setWidth]
  omega

theorem aligned_page {s : Space} {pc : Addr} (hp : Paged s.mapped) (ha : pc &&& 3 = 0) (i : Nat)
    (hi : i < 4) : s.mapped (pc + BitVec.ofNat 64 i) = s.mapped pc := by
  apply hp
  have h1 : pc.toNat % 4 = 0 := by
    have := congrArg BitVec.toNat ha
    rw [BitVec.toNat_and] at this
    change pc.toNat &&& (2 ^ 2 - 1) = 0 at this
    rw [Nat.and_two_pow_sub_one_eq_mod] at this
    exact this
  have := pc.isLt
  rw [BitVec.toNat_add, BitVec.toNat_ofNat]
  omega

theorem moved_le (s : Space) (a : Addr) (n k : Nat) (h : s.moved a n = some k) : k ≤ n := by
  unfold Space.moved at h
  dsimp only at h
  split at h
  · injection h with h; omega
  · split at h
    · cases h
    · injection h with h
      rw [← h]
      refine Nat.le_trans (List.IsPrefix.length_le (List.takeWhile_prefix _)) ?_
      simp

/-- What writing an instruction does to memory that is mapped. -/
theorem insnWrite_mapped {s : Space} {pc : Addr} (new : BitVec 32) (hg : s.gone = false)
    (hp : Paged s.mapped) (ha : pc &&& 3 = 0) (hm : s.mapped pc = true) :
    insnWrite s pc new =
      ({ s with mem := s.mem.write pc (leBytes 4 (new.setWidth 64)) }, 0) := by
  have e : s.moved pc AARCH64_INSN_SIZE = some 4 :=
    moved_all hg (fun i hi => by rw [aligned_page hp ha i hi, hm])
  unfold insnWrite
  rw [if_neg (by simpa using ha), e]
  simp only [memcpyToTask]
  rw [List.take_of_length_le (by simp)]
  rfl

/-- **C96, partial.**  For every living process, every mapped address that is a multiple of
4: if the check is asked for and the instruction there is not the expected one, the result is
-22 and nothing changes; otherwise the result is 0, the new instruction is there, and nothing
else changes.  Missing: at an address that is not mapped, success is reported
(`C96_unmapped`, `C96_garbage`). -/
theorem C96_modify_partial (s : Space) (pc : Addr) (old new : BitVec 32) (validate : Bool)
    (uninit : BitVec 32) (hg : s.gone = false) (hp : Paged s.mapped) (ha : pc &&& 3 = 0)
    (hm : s.mapped pc = true) :
    (validate = true ∧ wordAt s.mem pc ≠ old → modifyCode s pc old new validate uninit = (s, -22)) ∧
    (¬ (validate = true ∧ wordAt s.mem pc ≠ old) → ∃ s',
      modifyCode s pc old new validate uninit = (s', 0) ∧ wordAt s'.mem pc = new ∧
      SameBut s.mem s'.mem pc 4 ∧ s'.mapped = s.mapped ∧ s'.gone = s.gone) := by
  have e : s.moved pc AARCH64_INSN_SIZE = some 4 :=
    moved_all hg (fun i hi => by rw [aligned_page hp ha i hi, hm])
  have hv : validateInsn s pc old uninit = if wordAt s.mem pc ≠ old then -22 else 0 := by
    unfold validateInsn insnRead
    rw [e]
    have e1 : (memcpyFromTask s.mem pc (leBytes 4 (uninit.setWidth 64)) (some 4)) =
        (s.mem.read pc 4, 4) := by
      simp only [memcpyFromTask]
      rw [List.drop_of_length_le (by simp), List.append_nil]
      rfl
    rw [e1]
    dsimp only
    rw [if_pos (by decide), word_read]
    rfl
  have hw := insnWrite_mapped new hg hp ha hm
  constructor
  · rintro ⟨rfl, h⟩
    unfold modifyCode
    simp only [hv, if_pos h, if_true]
    rw [if_pos (by decide)]
  · intro h
    have hv0 : (if validate then validateInsn s pc old uninit else 0) = 0 := by
      cases validate with
      | false => rfl
      | true =>
        rw [if_pos rfl, hv, if_neg (fun hne => h ⟨rfl, hne⟩)]
    refine ⟨{ s with mem := s.mem.write pc (leBytes 4 (new.setWidth 64)) }, ?_, word_write _ _ _,
      fun x hx => Mem.write_out _ _ _ _ (by simpa using hx), rfl, rfl⟩
    unfold modifyCode
    simp only [hv0, hw]
    rfl

theorem exSpace_paged : Paged exSpace.mapped := by
  intro x y h
  simp only [exSpace, h]

example : ∃ s', modifyCode exSpace 0x1004 0 0xd503201f true 7 = (s', 0) ∧
    wordAt s'.mem 0x1004 = 0xd503201f := by
  obtain ⟨s', h1, h2, -⟩ := (C96_modify_partial exSpace 0x1004 0 0xd503201f true 7 rfl
    exSpace_paged (by decide) rfl).2 (fun h => h.2 (by decide))
  exact ⟨s', h1, h2⟩

theorem insnWrite_safe (s : Space) (pc : Addr) (new : BitVec 32) :
    SameBut s.mem (insnWrite s pc new).1.mem pc 4 ∧
      ((insnWrite s pc new).2 ≠ 0 → (insnWrite s pc new).1 = s) := by
  unfold insnWrite
  by_cases ha : pc &&& 3 ≠ 0
  · rw [if_pos ha]; exact ⟨fun _ _ => rfl, fun _ => rfl⟩
  · rw [if_neg ha]
    dsimp only
    cases hmv : s.moved pc AARCH64_INSN_SIZE with
    | none => exact ⟨fun _ _ => rfl, fun _ => rfl⟩
    | some k =>
      have hk : k ≤ 4 := moved_le _ _ _ _ hmv
      refine ⟨fun x hx => Mem.write_out _ _ _ _ ?_, ?_⟩
      · rw [List.length_take]; omega
      · by_cases h0 : k = 0
        · subst h0
          intro _
          have : ∀ bs : List Byte, s.mem.write pc (bs.take 0) = s.mem := by
            intro bs; funext x; exact Mem.write_out _ _ _ _ (by simp)
          simp only [memcpyToTask, this]
        · intro h
          exfalso
          have hne : (BitVec.ofNat 32 k).toInt ≠ 0 := by
            rw [BitVec.toInt_eq_toNat_cond, BitVec.toNat_ofNat]; omega
          simp only [memcpyToTask] at h
          exact h (if_pos hne)

/-- **C96, safety.**  For every process, mapped or not, alive or not: at most the four bytes
at the address change, and if an error is reported, nothing does. -/
theorem C96_safe (s : Space) (pc : Addr) (old new : BitVec 32) (validate : Bool)
    (uninit : BitVec 32) :
    SameBut s.mem (modifyCode s pc old new validate uninit).1.mem pc 4 ∧
      ((modifyCode s pc old new validate uninit).2 ≠ 0 →
        (modifyCode s pc old new validate uninit).1 = s) := by
  unfold modifyCode
  dsimp only
  generalize (if validate then validateInsn s pc old uninit else 0) = v
  by_cases hv : v ≠ 0
  · rw [if_pos hv]; exact ⟨fun _ _ => rfl, fun _ => rfl⟩
  · rw [if_neg hv]
    obtain ⟨h1, h2⟩ := insnWrite_safe s pc new
    refine ⟨h1, fun h => h2 (fun h0 => ?_)⟩
    dsimp only at h
    rw [h0] at h
    exact h rfl

/-- An address that is not a multiple of 4 and a process that has ended are refused. -/
theorem C96_refused (s : Space) (pc : Addr) (old new : BitVec 32) (validate : Bool)
    (uninit : BitVec 32) (h : pc &&& 3 ≠ 0 ∨ s.gone = true) :
    (modifyCode s pc old new validate uninit).2 ≠ 0 := by
  unfold modifyCode
  dsimp only
  generalize (if validate then validateInsn s pc old uninit else 0) = v
  by_cases hv : v ≠ 0
  · rw [if_pos hv]; exact hv
  · rw [if_neg hv]
    have : (insnWrite s pc new).2 ≠ 0 := by
      unfold insnWrite
      split
      · simp
      · rename_i ha
        have hgone : s.gone = true := by
          rcases h with h | h
          · exact absurd h ha
          · exact h
        have : s.moved pc AARCH64_INSN_SIZE = some 0 := by
          unfold Space.moved; rw [if_pos hgone]
        rw [this]
        simp [memcpyToTask]
    dsimp only
    rw [if_pos this]
    decide

example : (modifyCode exSpace 0x1002 0 0xd503201f false 0).2 ≠ 0 :=
  C96_refused _ _ _ _ _ _ (.inl (by decide))

/-- The errors: with the check, a process that has ended gives -14; without it, that and an
address that is not a multiple of 4 give -1. -/
theorem C96_errors (s : Space) (pc : Addr) (old new uninit : BitVec 32) :
    (s.gone = true → modifyCode s pc old new true uninit = (s, -14)) ∧
    (pc &&& 3 ≠ 0 ∨ s.gone = true → (modifyCode s pc old new false uninit).2 = -1) := by
  constructor
  · intro hg
    have e : s.moved pc AARCH64_INSN_SIZE = some 0 := by
      unfold Space.moved; rw [if_pos hg]
    have hv : validateInsn s pc old uninit = -14 := by
      unfold validateInsn insnRead
      rw [e]
      simp [memcpyFromTask]
    unfold modifyCode
    dsimp only
    rw [hv]
    rfl
  · intro h
    have h0 := C96_refused s pc old new false uninit h
    unfold modifyCode at h0 ⊢
    dsimp only at h0 ⊢
    rw [if_neg (by simp)] at h0 ⊢
    dsimp only at h0 ⊢
    split
    · rfl
    · rename_i hw
      rw [if_neg hw] at h0
      exact absurd rfl h0

example : modifyCode { exSpace with gone := true } 0x1000 0 0xd503201f true 0 =
    ({ exSpace with gone := true }, -14) :=
  (C96_errors _ _ _ _ _).1 rfl

/-- **Finding.**  At an address that is not mapped nothing can be written, but success is
reported: the functions take the result -1 of `pwrite` for success. -/
theorem C96_unmapped (s : Space) (pc : Addr) (old new uninit : BitVec 32) (hg : s.gone = false)
    (ha : pc &&& 3 = 0) (hm : s.mapped pc = false) :
    modifyCode s pc old new false uninit = (s, 0) := by
  have e : s.moved pc AARCH64_INSN_SIZE = none := moved_none hg (by decide) hm
  have hw : insnWrite s pc new = (s, 0) := by
    unfold insnWrite
    rw [if_neg (by simpa using ha), e]
    rfl
  unfold modifyCode
  rw [hw]
  rfl

/-- **Finding.**  The same with the check: the instruction is compared with a variable that
was never set. -/
theorem C96_garbage (s : Space) (pc : Addr) (old new uninit : BitVec 32) (hg : s.gone = false)
    (ha : pc &&& 3 = 0) (hm : s.mapped pc = false) :
    modifyCode s pc old new true uninit = (s, if uninit = old then 0 else -22) := by
  have e : s.moved pc AARCH64_INSN_SIZE = none := moved_none hg (by decide) hm
  have hv : validateInsn s pc old uninit = if uninit = old then 0 else -22 := by
    unfold validateInsn insnRead
    rw [e]
    have e1 : memcpyFromTask s.mem pc (leBytes 4 (uninit.setWidth 64)) none =
        (leBytes 4 (uninit.setWidth 64), -1) := rfl
    rw [e1]
    dsimp only
    rw [if_pos (show (-1 : Int) ≠ 0 by decide), leNat_leBytes]
    have : BitVec.ofNat 32 ((uninit.setWidth 64).toNat % 256 ^ 4) = uninit := by
      apply BitVec.eq_of_toNat_eq
      have := uninit.isLt
      simp only [BitVec.toNat_ofNat, BitVec.toNat_setWidth]
      omega
    rw [this]
    show (if uninit ≠ old then (-22 : Int) else 0) = _
    by_cases h : uninit = old
    · rw [if_neg (by simpa using h), if_pos h]
    · rw [if_pos h, if_neg h]
  have hw : insnWrite s pc new = (s, 0) := by
    unfold insnWrite
    rw [if_neg (by simpa using ha), e]
    rfl
  unfold modifyCode
  simp only [hv, hw, if_true]
  by_cases h : uninit = old
  · rw [if_pos h]; rfl
  · rw [if_neg h]; rfl

example : modifyCode exSpace 0x5000 1 2 true 1 = (exSpace, 0) ∧
    modifyCode exSpace 0x5000 1 2 true 3 = (exSpace, -22) :=
  ⟨C96_garbage exSpace 0x5000 1 2 1 rfl (by decide) rfl,
    C96_garbage exSpace 0x5000 1 2 3 rfl (by decide) rfl⟩

/-! ### C97 -/

theorem isBl_iff (w : BitVec 32) : insnIsBl w = true ↔ IsBl w := by
  unfold insnIsBl IsBl
  rw [beq_iff_eq]
  constructor
  · intro h
    have := congrArg (fun v => v.extractLsb' 26 6) h
    simp only [BitVec.extractLsb'_and] at this
    rw [show (0xFC000000 : BitVec 32).extractLsb' 26 6 = BitVec.allOnes 6 by decide,
      BitVec.and_allOnes] at this
    exact this
  · intro h
    apply BitVec.eq_of_getLsbD_eq
    intro i hi
    rw [BitVec.getLsbD_and]
    by_cases h26 : 26 ≤ i
    · have := congrArg (fun v => v.getLsbD (i - 26)) h
      simp only [BitVec.getLsbD_extractLsb', show 26 + (i - 26) = i by omega,
        show i - 26 < 6 by omega, decide_true, Bool.true_and] at this
      rw [this]
      have : i = 26 ∨ i = 27 ∨ i = 28 ∨ i = 29 ∨ i = 30 ∨ i = 31 := by omega
      rcases this with rfl | rfl | rfl | rfl | rfl | rfl <;> decide
    · have e1 : (0xFC000000#32).getLsbD i = false := by
        have : ∀ j : Fin 26, (0xFC000000#32).getLsbD j.val = false := by decide
        exact this ⟨i, by omega⟩
      have e2 : (0x94000000#32).getLsbD i = false := by
        have : ∀ j : Fin 26, (0x94000000#32).getLsbD j.val = false := by decide
        exact this ⟨i, by omega⟩
      have e3 : (4227858432 : BitVec 32).getLsbD i = false := e1
      have e4 : (2483027968 : BitVec 32).getLsbD i = false := e2
      rw [e3, e4, Bool.and_false]

theorem funcBl_go (pre post : List (BitVec 32)) (w : BitVec 32) (o : BitVec 32)
    (h : ∀ x ∈ pre, ¬ IsBl x) (hw : IsBl w) :
    funcBlOffset (pre ++ w :: post) o = some (o + BitVec.ofNat 32 (4 * pre.length)) := by
  induction pre generalizing o with
  | nil => simp [funcBlOffset, (isBl_iff w).2 hw]
  | cons x pre ih =>
    rw [List.cons_append, funcBlOffset, if_neg (fun q => h x (by simp) ((isBl_iff x).1 q)),
      ih _ (fun y hy => h y (by simp [hy])), List.length_cons, BitVec.add_assoc]
    congr 2
    rw [show (4 : BitVec 32) = BitVec.ofNat 32 4 from rfl, ← BitVec.ofNat_add]
    congr 1
    omega

/-- **C97, partial.**  If the function has a `BL` instruction, less than 4 GiB from its start,
the result is the offset of the first one.  Missing: for a function without one, the search
goes on behind its end (`C97_none`). -/
theorem C97_first_bl_partial (pre post : List (BitVec 32)) (w : BitVec 32)
    (h : ∀ x ∈ pre, ¬ IsBl x) (hw : IsBl w) (hl : 4 * pre.length < 2 ^ 32) :
    ∃ o, funcBlOffset (pre ++ w :: post) 0 = some o ∧ o.toNat = 4 * pre.length :=
  ⟨_, funcBl_go pre post w 0 h hw, by
    rw [show (0 : BitVec 32) = 0#32 from rfl, BitVec.zero_add, BitVec.toNat_ofNat, Nat.mod_eq_of_lt hl]⟩

example : ∃ o, funcBlOffset [0xa9bf7bfd, 0x910003fd, 0x94000005, 0xd65f03c0] 0 = some o ∧
    o.toNat = 8 :=
  C97_first_bl_partial [0xa9bf7bfd, 0x910003fd] [0xd65f03c0] 0x94000005
    (by intro x hx; simp at hx; rcases hx with rfl | rfl <;> (unfold IsBl; decide))
    (by unfold IsBl; decide) (by simp)

/-- **Finding.**  For a function without `BL` the search does not stop at its end. -/
theorem C97_none (words : List (BitVec 32)) (o : BitVec 32) (h : ∀ x ∈ words, ¬ IsBl x) :
    funcBlOffset words o = none := by
  induction words generalizing o with
  | nil => rfl
  | cons x ws ih =>
    rw [funcBlOffset, if_neg (fun q => h x (by simp) ((isBl_iff x).1 q))]
    exact ih _ (fun y hy => h y (by simp [hy]))

end Ulp.TaskMem
