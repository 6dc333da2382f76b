/- Recognising relocated A64 instructions. -/
import Verif.Spec.A64
namespace Ulp.A64

theorem ext_bit {w : BitVec 32} {a n : Nat} {c : BitVec n} (h : w.extractLsb' a n = c) (i : Nat)
    (hi : i < n) : w.getLsbD (a + i) = c.getLsbD i := by
  rw [← h, BitVec.getLsbD_extractLsb']; simp [hi]

/-- Two fields that disagree in one instruction bit. -/
theorem ext_ne {w : BitVec 32} {a n b k : Nat} {c : BitVec n} {d : BitVec k}
    (h : w.extractLsb' a n = c) (i j : Nat) (hi : i < n) (hj : j < k) (hij : a + i = b + j)
    (hne : c.getLsbD i ≠ d.getLsbD j) : w.extractLsb' b k ≠ d := by
  intro h'
  apply hne
  rw [← ext_bit h i hi, ← ext_bit h' j hj, hij]

theorem ne_of_ext {w : BitVec 32} {a n : Nat} {c : BitVec n} (h : w.extractLsb' a n = c)
    (v : BitVec 32) (hne : v.extractLsb' a n ≠ c) : w ≠ v := by
  rintro rfl; exact hne h

theorem decode_b {w : BitVec 32} (h : w.extractLsb' 26 6 = 0b000101) :
    decodeWord w = some (.b (w.extractLsb' 0 26)) := by
  unfold decodeWord
  rw [if_neg (ne_of_ext h _ (by decide)),
    if_neg (ext_ne h 1 3 (by decide) (by decide) rfl (by decide)),
    if_neg (fun k => ext_ne h 5 21 (by decide) (by decide) rfl (by decide) k.1),
    if_pos h]

theorem decode_bl {w : BitVec 32} (h : w.extractLsb' 26 6 = 0b100101) :
    decodeWord w = some (.bl (w.extractLsb' 0 26)) := by
  unfold decodeWord
  rw [if_neg (ne_of_ext h _ (by decide)),
    if_neg (ext_ne h 5 7 (by decide) (by decide) rfl (by decide)),
    if_neg (fun k => ext_ne h 4 20 (by decide) (by decide) rfl (by decide) k.1),
    if_neg (by rw [h]; decide), if_pos h]

theorem decode_ldr {w : BitVec 32} (h : w.extractLsb' 24 8 = 0x58) :
    decodeWord w = some (.ldrLit (w.extractLsb' 0 5) (w.extractLsb' 5 19)) := by
  unfold decodeWord
  rw [if_neg (ne_of_ext h _ (by decide)), if_pos h]

theorem adr_class {w : BitVec 32} (h : w.extractLsb' 24 5 = 0b10000) :
    decodeWord w = if w.extractLsb' 31 1 = 0 then
      some (.adr (w.extractLsb' 0 5) (w.extractLsb' 5 19 ++ w.extractLsb' 29 2))
      else some (.adrp (w.extractLsb' 0 5) (w.extractLsb' 5 19 ++ w.extractLsb' 29 2)) := by
  unfold decodeWord
  rw [if_neg (ne_of_ext h _ (by decide)),
    if_neg (ext_ne h 3 3 (by decide) (by decide) rfl (by decide)),
    if_neg (fun k => ext_ne h 2 16 (by decide) (by decide) rfl (by decide) k.1),
    if_neg (ext_ne h 2 0 (by decide) (by decide) rfl (by decide)),
    if_neg (ext_ne h 2 0 (by decide) (by decide) rfl (by decide)), if_pos h]

theorem decode_add {w : BitVec 32} (h : w.extractLsb' 22 10 = 0b1001000100) :
    decodeWord w = some (.addImm (w.extractLsb' 0 5) (w.extractLsb' 5 5) (w.extractLsb' 10 12)) := by
  unfold decodeWord
  rw [if_neg (ne_of_ext h _ (by decide)),
    if_neg (ext_ne h 5 3 (by decide) (by decide) rfl (by decide)),
    if_neg (fun k => ext_ne h 4 16 (by decide) (by decide) rfl (by decide) k.1),
    if_neg (ext_ne h 4 0 (by decide) (by decide) rfl (by decide)),
    if_neg (ext_ne h 4 0 (by decide) (by decide) rfl (by decide)),
    if_neg (ext_ne h 2 0 (by decide) (by decide) rfl (by decide)), if_pos h]

/-- The move-wide class: opc selects MOVN (00), MOVZ (10), MOVK (11). -/
theorem movw_class {w : BitVec 32} (h : w.extractLsb' 23 6 = 0b100101) (hsf : w.getLsbD 31 = true)
    (hopc : w.extractLsb' 29 2 ≠ 0b01) :
    decodeWord w =
      if w.extractLsb' 29 2 = 0b10 then some (.movz (w.extractLsb' 0 5) (w.extractLsb' 21 2) (w.extractLsb' 5 16))
      else if w.extractLsb' 29 2 = 0b00 then some (.movn (w.extractLsb' 0 5) (w.extractLsb' 21 2) (w.extractLsb' 5 16))
      else some (.movk (w.extractLsb' 0 5) (w.extractLsb' 21 2) (w.extractLsb' 5 16)) := by
  have hdec : w.extractLsb' 23 9 = (1 : BitVec 1) ++ w.extractLsb' 29 2 ++ (0b100101 : BitVec 6) := by
    rw [← h]
    apply BitVec.eq_of_getLsbD_eq
    intro i hi
    rw [BitVec.getLsbD_extractLsb']
    refine Eq.trans ?_ (BitVec.getLsbD_append ..).symm
    rw [BitVec.getLsbD_extractLsb']
    by_cases h6 : i < 6
    · simp [hi, h6]
    · rw [if_neg (by omega), BitVec.getLsbD_append, BitVec.getLsbD_extractLsb']
      by_cases h8 : i < 8
      · rw [if_pos (by omega)]
        have e : 29 + (i - 6) = 23 + i := by omega
        have e2 : i - 6 < 2 := by omega
        simp [hi, e, e2]
      · have : i = 8 := by omega
        subst this
        simpa using hsf
  unfold decodeWord
  rw [if_neg (ne_of_ext h _ (by decide)),
    if_neg (ext_ne h 4 3 (by decide) (by decide) rfl (by decide)),
    if_neg (fun k => ext_ne h 3 16 (by decide) (by decide) rfl (by decide) k.1),
    if_neg (ext_ne h 3 0 (by decide) (by decide) rfl (by decide)),
    if_neg (ext_ne h 3 0 (by decide) (by decide) rfl (by decide)),
    if_neg (ext_ne h 2 1 (by decide) (by decide) rfl (by decide)),
    if_neg (ext_ne h 2 3 (by decide) (by decide) rfl (by decide)), hdec]
  generalize w.extractLsb' 29 2 = opc at *
  have : ∀ opc : BitVec 2, opc = 0 ∨ opc = 1 ∨ opc = 2 ∨ opc = 3 := by decide
  rcases this opc with rfl | rfl | rfl | rfl
  · rw [if_neg (by decide), if_pos (by decide), if_neg (by decide), if_pos (by decide)]
  · exact absurd rfl hopc
  · rw [if_pos (by decide), if_pos (by decide)]
  · rw [if_neg (by decide), if_neg (by decide), if_pos (by decide), if_neg (by decide), if_neg (by decide)]

end Ulp.A64
