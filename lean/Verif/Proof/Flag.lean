/-
Testing one bit with a mask.
-/
namespace Ulp.Flag

theorem and_twoPow {w : Nat} (x : BitVec w) (i : Nat) : x &&& BitVec.twoPow w i ≠ 0 ↔ x.getLsbD i = true := by
  constructor
  · intro h
    apply Classical.byContradiction
    intro hb
    apply h
    apply BitVec.eq_of_getLsbD_eq
    intro k hk
    rw [BitVec.getLsbD_and, BitVec.getLsbD_twoPow]
    by_cases e : i = k
    · subst e; simp only [Bool.not_eq_true] at hb; simp [hb]
    · simp [e]
  · intro h e
    have := congrArg (BitVec.getLsbD · i) e
    have hw : i < w := by
      apply Classical.byContradiction
      intro hi
      rw [BitVec.getLsbD_of_ge _ _ (by omega)] at h
      cases h
    simp only [BitVec.getLsbD_and, BitVec.getLsbD_twoPow, h, hw, decide_true, Bool.and_true] at this
    simp at this

end Ulp.Flag
