import Verif.Model.A64Insn
import Verif.Spec.A64Imm
namespace Ulp
open A64

theorem bitsFrom_get (lo n k : Nat) : (bitsFrom lo n)[k]? = if k < n then some (lo + k) else none := by
  unfold bitsFrom
  rw [List.getElem?_map]
  split
  · next h => simp [h]
  · next h => simp [Nat.le_of_not_lt h]

theorem mem_bitsFrom (lo n j : Nat) : j ∈ bitsFrom lo n ↔ lo ≤ j ∧ j < lo + n := by
  unfold bitsFrom
  simp only [List.mem_map, List.mem_range]
  constructor
  · rintro ⟨k, hk, rfl⟩; omega
  · rintro ⟨h1, h2⟩; exact ⟨j - lo, by omega, by omega⟩

theorem mask_getLsbD (w n i : Nat) (hi : i < w) :
    (BitVec.ofNat w (2^n - 1)).getLsbD i = decide (i < n) := by
  rw [BitVec.getLsbD_ofNat, Nat.testBit_two_pow_sub_one]
  simp [hi]

namespace A64Insn

/-- The contiguous fields. -/
def contig : ImmType → Option (Nat × Nat)
  | .i26 => some (0, 26)
  | .i19 => some (5, 19)
  | .i16 => some (5, 16)
  | .i14 => some (5, 14)
  | .i12 => some (10, 12)
  | .i9 => some (12, 9)
  | .i7 => some (15, 7)
  | .i6 => some (10, 6)
  | .s => some (10, 6)
  | .r => some (16, 6)
  | .n => some (22, 1)
  | .adr => none
  | .max => none

theorem immShiftMask_contig (t : ImmType) :
    immShiftMask t = (contig t).map fun p => (BitVec.ofNat 32 (2^p.2 - 1), p.1) := by
  cases t <;> rfl

theorem contig_bound {t lo n} (h : contig t = some (lo, n)) : lo + n ≤ 32 ∧ 0 < n := by
  cases t <;> simp only [contig, Option.some.injEq, Prod.mk.injEq, reduceCtorEq] at h <;> omega

theorem encode_contig {t : ImmType} {lo n : Nat} (h : contig t = some (lo, n)) (insn : BitVec 32)
    (imm : BitVec 64) (hf : insn ≠ BREAK_FAULT) (j : Nat) (hj : j < 32) :
    (encodeImm t insn imm).getLsbD j =
      if lo ≤ j ∧ j < lo + n then imm.getLsbD (j - lo) else insn.getLsbD j := by
  have hb := contig_bound h
  have ha : t ≠ .adr := by rintro rfl; cases h
  have : encodeImm t insn imm =
      (insn &&& ~~~ (BitVec.ofNat 32 (2^n-1) <<< lo)) |||
        ((imm &&& (BitVec.ofNat 32 (2^n-1)).setWidth 64) <<< lo).setWidth 32 := by
    unfold encodeImm
    rw [if_neg hf]
    cases t <;> first | exact absurd rfl ha | (dsimp only; rw [immShiftMask_contig, h]; rfl)
  rw [this]
  simp only [BitVec.getLsbD_or, BitVec.getLsbD_and, BitVec.getLsbD_not, BitVec.getLsbD_shiftLeft,
    BitVec.getLsbD_setWidth, hj]
  by_cases h1 : lo ≤ j
  · by_cases h2 : j < lo + n
    · rw [mask_getLsbD _ _ _ (by omega)]
      have e1 : decide (j - lo < n) = true := by simp; omega
      have e2 : decide (j < lo) = false := by simp; omega
      have e3 : decide (j < 64) = true := by simp; omega
      have e4 : decide (j - lo < 64) = true := by simp; omega
      simp [e1, e2, e3, e4, h1, h2]
    · rw [mask_getLsbD _ _ _ (by omega)]
      have e1 : decide (j - lo < n) = false := by simp; omega
      simp [e1, h2]
  · have e2 : decide (j < lo) = true := by simp; omega
    simp [e2, h1]

theorem decode_contig {t : ImmType} {lo n : Nat} (h : contig t = some (lo, n)) (insn : BitVec 32)
    (k : Nat) : (decodeImm t insn).getLsbD k = if k < n then insn.getLsbD (lo + k) else false := by
  have hb := contig_bound h
  have : decodeImm t insn = ((insn >>> lo) &&& BitVec.ofNat 32 (2^n-1)).setWidth 64 := by
    unfold decodeImm
    cases t <;> first | (cases h; done) | (dsimp only; rw [immShiftMask_contig, h]; rfl)
  rw [this]
  simp only [BitVec.getLsbD_and, BitVec.getLsbD_ushiftRight, BitVec.getLsbD_setWidth]
  by_cases hk : k < n
  · rw [mask_getLsbD _ _ _ (by omega)]
    have : decide (k < 64) = true := by simp; omega
    simp [hk, this]
  · by_cases h32 : k < 32
    · rw [mask_getLsbD _ _ _ h32]; simp [hk]
    · rw [BitVec.getLsbD_of_ge insn _ (by omega)]
      simp [hk]

theorem adr_mask (j : Nat) (hj : j < 32) :
    (0x60ffffe0 : BitVec 32).getLsbD j = (decide (29 ≤ j ∧ j < 31) || decide (5 ≤ j ∧ j < 24)) := by
  have : ∀ j, j < 32 → (0x60ffffe0 : BitVec 32).getLsbD j =
    (decide (29 ≤ j ∧ j < 31) || decide (5 ≤ j ∧ j < 24)) := by decide
  exact this j hj

theorem encode_adr (insn : BitVec 32) (imm : BitVec 64) (hf : insn ≠ BREAK_FAULT) (j : Nat) (hj : j < 32) :
    (encodeImm .adr insn imm).getLsbD j =
      if 29 ≤ j ∧ j < 31 then imm.getLsbD (j - 29)
      else if 5 ≤ j ∧ j < 24 then imm.getLsbD (2 + (j - 5)) else insn.getLsbD j := by
  unfold encodeImm
  rw [if_neg hf]
  dsimp only [ADR_IMM_LOMASK, ADR_IMM_HIMASK]
  simp only [BitVec.getLsbD_or, BitVec.getLsbD_and, BitVec.getLsbD_not, BitVec.getLsbD_shiftLeft,
    BitVec.getLsbD_setWidth, hj, adr_mask j hj, BitVec.getLsbD_ushiftRight,
    show (3 : Nat) = 2^2 - 1 from rfl, show (0x7ffff : Nat) = 2^19-1 from rfl]
  by_cases h1 : 29 ≤ j ∧ j < 31
  · rw [mask_getLsbD _ _ _ (by omega), mask_getLsbD _ _ _ (by omega)]
    have e1 : decide (j - 29 < 2) = true := by simp; omega
    have e2 : decide (j < 29) = false := by simp; omega
    have e3 : decide (j < 64) = true := by simp; omega
    have e4 : decide (j - 5 < 19) = false := by simp; omega
    simp [e1, e2, e3, e4, h1]
  · by_cases h2 : 5 ≤ j ∧ j < 24
    · rw [mask_getLsbD _ _ _ (by omega), mask_getLsbD _ _ _ (by omega)]
      have e2 : decide (j < 29) = true := by simp; omega
      have e3 : decide (j < 64) = true := by simp; omega
      have e4 : decide (j - 5 < 19) = true := by simp; omega
      have e5 : decide (j < 5) = false := by simp; omega
      have e6 : ¬ 29 ≤ j := by omega
      simp [e2, e3, e4, e5, e6, h2]
    · have e : (decide (29 ≤ j ∧ j < 31) || decide (5 ≤ j ∧ j < 24)) = false := by
        simp [h1, h2]
      rw [e]
      simp [h1, h2]

theorem decode_adr (insn : BitVec 32) (k : Nat) :
    (decodeImm .adr insn).getLsbD k =
      if k < 2 then insn.getLsbD (29 + k) else if k < 21 then insn.getLsbD (5 + (k - 2)) else false := by
  unfold decodeImm
  dsimp only [ADR_IMM_LOMASK, ADR_IMM_HIMASK]
  simp only [BitVec.getLsbD_or, BitVec.getLsbD_and, BitVec.getLsbD_shiftLeft,
    BitVec.getLsbD_setWidth, BitVec.getLsbD_ushiftRight, Nat.zero_add,
    show (3 : Nat) = 2^2 - 1 from rfl, show (0x7ffff : Nat) = 2^19-1 from rfl,
    show (0x1fffff : BitVec 32) = BitVec.ofNat 32 (2^21-1) from rfl]
  by_cases h32 : k < 32
  · rw [mask_getLsbD _ _ _ h32, mask_getLsbD _ _ _ h32, mask_getLsbD _ _ _ (by omega)]
    by_cases h1 : k < 2
    · have e1 : decide (k < 21) = true := by simp; omega
      have e2 : decide (k < 64) = true := by simp; omega
      simp [h1, e1, e2]
    · by_cases h2 : k < 21
      · have e2 : decide (k < 64) = true := by simp; omega
        have e3 : decide (k - 2 < 19) = true := by simp; omega
        simp [h1, h2, e2, e3, h32]
      · simp [h1, h2]
  · have e1 : ¬ k < 2 := by omega
    have e2 : ¬ k < 21 := by omega
    simp only [e1, e2, if_false]
    rw [BitVec.getLsbD_of_ge insn _ (by omega), BitVec.getLsbD_of_ge (BitVec.ofNat 32 (2^21-1)) _ (by omega)]
    simp

end A64Insn
end Ulp
