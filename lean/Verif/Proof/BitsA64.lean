/- Bit-vector facts for scaled, sign-extended immediates. -/
import Verif.Model.Mem
namespace Ulp

syntax "fitsS" : tactic
macro_rules
  | `(tactic| fitsS) => `(tactic| (
      simp only [BitVec.toInt_eq_toNat_bmod, BitVec.toNat_setWidth, Int.bmod_def]; omega))

theorem fitsS21 (v : BitVec 64) :
    v = (v.setWidth 21).signExtend 64 ↔ (-2^20 ≤ v.toInt ∧ v.toInt < 2^20) := by
  rw [← BitVec.toInt_inj, BitVec.toInt_signExtend, show min 64 21 = 21 from rfl]
  have := v.isLt; fitsS

theorem fitsS28 (v : BitVec 64) :
    v = (v.setWidth 28).signExtend 64 ↔ (-2^27 ≤ v.toInt ∧ v.toInt < 2^27) := by
  rw [← BitVec.toInt_inj, BitVec.toInt_signExtend, show min 64 28 = 28 from rfl]
  have := v.isLt; fitsS

theorem fitsS33 (v : BitVec 64) :
    v = (v.setWidth 33).signExtend 64 ↔ (-2^32 ≤ v.toInt ∧ v.toInt < 2^32) := by
  rw [← BitVec.toInt_inj, BitVec.toInt_signExtend, show min 64 33 = 33 from rfl]
  have := v.isLt; fitsS

/-- Dropping `k` zero low bits and putting them back. -/
theorem scale_append (v : BitVec 64) (n k : Nat) (_hnk : n + k ≤ 64)
    (hlow : ∀ i, i < k → v.getLsbD i = false) :
    (v.sshiftRight k).setWidth n ++ (0 : BitVec k) = (v.setWidth (n + k) : BitVec (n + k)) := by
  apply BitVec.eq_of_getLsbD_eq
  intro i hi
  rw [BitVec.getLsbD_append]
  simp only [BitVec.getLsbD_setWidth, hi, decide_true, Bool.true_and]
  by_cases h : i < k
  · rw [if_pos h, hlow i h]; simp
  · rw [if_neg h, BitVec.getLsbD_sshiftRight]
    have e1 : k + (i - k) = i := by omega
    have e2 : i - k < n := by omega
    have e3 : i < 64 := by omega
    have e4 : ¬ 64 ≤ i - k := by omega
    simp [e1, e2, e3, e4]

theorem aligned4_low {a : BitVec 64} (h : a &&& 3 = 0) (i : Nat) (hi : i < 2) : a.getLsbD i = false := by
  have := congrArg (·.getLsbD i) h
  simp only [BitVec.getLsbD_and] at this
  have hm : (3 : BitVec 64).getLsbD i = true := by
    have : ∀ i, i < 2 → (3 : BitVec 64).getLsbD i = true := by decide
    exact this i hi
  rw [hm] at this
  simpa using this

theorem aligned4_iff (a : BitVec 64) : a &&& 3 = 0 ↔ a.toNat % 4 = 0 := by
  rw [← BitVec.toNat_inj, BitVec.toNat_and]
  have : (3 : BitVec 64).toNat = 2^2 - 1 := rfl
  rw [this, Nat.and_two_pow_sub_one_eq_mod]
  simp

theorem aligned4_sub {a b : BitVec 64} (ha : a &&& 3 = 0) (hb : b &&& 3 = 0) : (a - b) &&& 3 = 0 := by
  rw [aligned4_iff] at *
  rw [BitVec.toNat_sub]
  have := a.isLt; have := b.isLt
  omega

theorem ofInt_div4 (v : BitVec 64) : BitVec.ofInt 64 (v.toInt / 4) = v.sshiftRight 2 := by
  apply BitVec.eq_of_toInt_eq
  rw [BitVec.toInt_sshiftRight, BitVec.toInt_ofInt, Int.shiftRight_eq_div_pow]
  have := v.isLt
  rw [Int.bmod_eq_of_le]
  · rfl
  · have := BitVec.le_toInt v; simp at this ⊢; omega
  · have := BitVec.toInt_lt (x := v); simp at this ⊢; omega

end Ulp
