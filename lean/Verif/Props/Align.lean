/-
C42: alignment helpers; C44: protection bits.
-/
import Verif.Model.Align
namespace Ulp.Align

/-- `r` is the largest multiple of `m` that is not above `x`. -/
def IsFloor (m x r : Nat) : Prop := m ∣ r ∧ r ≤ x ∧ ∀ y, m ∣ y → y ≤ x → y ≤ r

/-- `r` is the smallest multiple of `m` that is not below `x`. -/
def IsCeil (m x r : Nat) : Prop := m ∣ r ∧ x ≤ r ∧ ∀ y, m ∣ y → x ≤ y → r ≤ y

theorem isFloor_div {m : Nat} (x : Nat) (hm : 0 < m) : IsFloor m x (x / m * m) := by
  refine ⟨⟨x / m, Nat.mul_comm _ _⟩, Nat.div_mul_le_self x m, ?_⟩
  rintro y ⟨k, rfl⟩ h
  rw [Nat.mul_comm m k]
  exact Nat.mul_le_mul_right m ((Nat.le_div_iff_mul_le hm).2 (by rwa [Nat.mul_comm k m]))

theorem isCeil_div {m : Nat} (x : Nat) (hm : 0 < m) : IsCeil m x ((x + m - 1) / m * m) := by
  refine ⟨⟨(x + m - 1) / m, Nat.mul_comm _ _⟩, ?_, ?_⟩
  · have h := Nat.div_add_mod (x + m - 1) m
    have h2 := Nat.mod_lt (x + m - 1) hm
    rw [Nat.mul_comm] at h
    omega
  · rintro y ⟨k, rfl⟩ h
    rw [Nat.mul_comm m k] at h ⊢
    apply Nat.mul_le_mul_right
    have : (x + m - 1) / m < k + 1 := by
      rw [Nat.div_lt_iff_lt_mul hm, Nat.add_mul]
      omega
    omega

theorem mask_toNat {w k : Nat} (h : k < w) : (BitVec.twoPow w k - 1#w).toNat = 2 ^ k - 1 := by
  have hk : 2 ^ k < 2 ^ w := Nat.pow_lt_pow_right (by omega) h
  have hp : 0 < 2 ^ k := Nat.pow_pos (by omega)
  rw [BitVec.toNat_sub, BitVec.toNat_twoPow, Nat.mod_eq_of_lt hk, BitVec.toNat_ofNat,
    Nat.mod_eq_of_lt (a := 1) (by omega),
    show 2 ^ w - 1 + 2 ^ k = (2 ^ k - 1) + 2 ^ w by omega, Nat.add_mod_right,
    Nat.mod_eq_of_lt (by omega)]

theorem mask_getLsbD {w k : Nat} (h : k < w) (i : Nat) :
    (BitVec.twoPow w k - 1#w).getLsbD i = decide (i < k) := by
  have h1 := mask_toNat h
  rw [← BitVec.testBit_toNat, h1, Nat.testBit_two_pow_sub_one]

theorem and_not_mask {w k : Nat} (h : k < w) (x : BitVec w) :
    (x &&& ~~~(BitVec.twoPow w k - 1#w)).toNat = x.toNat / 2 ^ k * 2 ^ k := by
  have e : x &&& ~~~(BitVec.twoPow w k - 1#w) = (x >>> k) <<< k := by
    apply BitVec.eq_of_getLsbD_eq
    intro i hi
    rw [BitVec.getLsbD_and, BitVec.getLsbD_not, mask_getLsbD h, BitVec.getLsbD_shiftLeft,
      BitVec.getLsbD_ushiftRight]
    by_cases hik : i < k
    · simp [hik]
    · simp only [hi, hik, decide_true, decide_false, Bool.not_false, Bool.and_true, Bool.true_and]
      congr 1
      omega
  rw [e, BitVec.toNat_shiftLeft, BitVec.toNat_ushiftRight, Nat.shiftRight_eq_div_pow,
    Nat.shiftLeft_eq]
  exact Nat.mod_eq_of_lt (Nat.lt_of_le_of_lt (Nat.div_mul_le_self _ _) x.isLt)

theorem and_mask {w k : Nat} (h : k < w) (x : BitVec w) :
    (x &&& (BitVec.twoPow w k - 1#w)).toNat = x.toNat % 2 ^ k := by
  apply Nat.eq_of_testBit_eq
  intro i
  rw [BitVec.testBit_toNat, BitVec.getLsbD_and, mask_getLsbD h, Nat.testBit_mod_two_pow,
    BitVec.testBit_toNat, Bool.and_comm]

/-- C42: rounding down to a power of two gives the largest multiple not above
the value. -/
theorem C42_round_down {w k : Nat} (h : k < w) (x : BitVec w) :
    IsFloor (2 ^ k) x.toNat (roundDown x (BitVec.twoPow w k)).toNat := by
  have e : (roundDown x (BitVec.twoPow w k)).toNat = _ := and_not_mask h x
  rw [e]
  exact isFloor_div _ (Nat.pow_pos (by omega))

theorem roundUp_toNat {w k : Nat} (h : k < w) (x : BitVec w) :
    (roundUp x (BitVec.twoPow w k)).toNat = (x.toNat + 2 ^ k - 1) % 2 ^ w / 2 ^ k * 2 ^ k := by
  have e : (roundUp x (BitVec.twoPow w k)).toNat = _ :=
    and_not_mask h (x + BitVec.twoPow w k - 1#w)
  rw [e]
  congr 2
  have hk : 2 ^ k < 2 ^ w := Nat.pow_lt_pow_right (by omega) h
  have hp : 0 < 2 ^ k := Nat.pow_pos (by omega)
  have h1 := mask_toNat h
  have e2 : x + BitVec.twoPow w k - 1#w = x + (BitVec.twoPow w k - 1#w) := by
    rw [BitVec.sub_eq_add_neg, BitVec.sub_eq_add_neg, BitVec.add_assoc]
  rw [e2, BitVec.toNat_add, h1]
  congr 1
  omega

/-- The least multiple of `2^k` not below `x` fits `w` bits. -/
theorem ceil_fits {w k x : Nat} (h : k < w) (hx : ∃ y, 2 ^ k ∣ y ∧ x ≤ y ∧ y < 2 ^ w) :
    x + 2 ^ k - 1 < 2 ^ w := by
  obtain ⟨y, ⟨c, rfl⟩, h1, h2⟩ := hx
  have hp : 0 < 2 ^ k := Nat.pow_pos (by omega)
  have e : 2 ^ w = 2 ^ k * 2 ^ (w - k) := by rw [← Nat.pow_add]; congr 1; omega
  rw [e] at h2 ⊢
  have hc : c < 2 ^ (w - k) := Nat.lt_of_mul_lt_mul_left h2
  have : 2 ^ k * (c + 1) ≤ 2 ^ k * 2 ^ (w - k) := Nat.mul_le_mul_left _ hc
  rw [Nat.mul_add, Nat.mul_one] at this
  omega

/-- C42: rounding up to a power of two gives the smallest multiple not below the
value whenever that multiple is representable, and 0 otherwise. -/
theorem C42_round_up {w k : Nat} (h : k < w) (x : BitVec w) :
    ((∃ y, 2 ^ k ∣ y ∧ x.toNat ≤ y ∧ y < 2 ^ w) →
      IsCeil (2 ^ k) x.toNat (roundUp x (BitVec.twoPow w k)).toNat) ∧
    ((¬ ∃ y, 2 ^ k ∣ y ∧ x.toNat ≤ y ∧ y < 2 ^ w) →
      (roundUp x (BitVec.twoPow w k)).toNat = 0) := by
  have hp : 0 < 2 ^ k := Nat.pow_pos (by omega)
  rw [roundUp_toNat h]
  constructor
  · intro hx
    rw [Nat.mod_eq_of_lt (ceil_fits h hx)]
    exact isCeil_div _ hp
  · intro hx
    have hge : 2 ^ w ≤ x.toNat + 2 ^ k - 1 := by
      by_cases hlt : 2 ^ w ≤ x.toNat + 2 ^ k - 1
      · exact hlt
      · exact absurd ⟨_, (isCeil_div x.toNat hp).1, (isCeil_div x.toNat hp).2.1,
          Nat.lt_of_le_of_lt (Nat.div_mul_le_self _ _) (by omega)⟩ hx
    have hx2 := x.isLt
    have hk : 2 ^ k < 2 ^ w := Nat.pow_lt_pow_right (by omega) h
    have : (x.toNat + 2 ^ k - 1) % 2 ^ w < 2 ^ k := by
      rw [Nat.mod_eq_sub_mod hge, Nat.mod_eq_of_lt (by omega)]
      omega
    rw [Nat.div_eq_of_lt this, Nat.zero_mul]

/-- C42: `ALIGN` is rounding up and `ALIGN_DOWN` is rounding down, also where
the intermediate subtraction wraps around. -/
theorem C42_align {w : Nat} (x a : BitVec w) : align x a = roundUp x a ∧ alignDown x a = roundDown x a := by
  unfold alignDown align alignMask roundUp roundDown
  constructor
  · rw [BitVec.sub_eq_add_neg, BitVec.sub_eq_add_neg, BitVec.add_assoc]
  · rw [BitVec.sub_add_cancel]

theorem pageSize_eq {k : Nat} : pageSize k = BitVec.twoPow 64 k := by
  apply BitVec.eq_of_toNat_eq
  show ((1 : BitVec 64) <<< k).toNat = _
  rw [BitVec.toNat_shiftLeft, BitVec.toNat_twoPow, Nat.shiftLeft_eq]
  simp

/-- C42: page start and page offset split an address, page align is the first
page boundary not below it (when there is one), and `PAGE_DOWN`/`PAGE_UP` are the
same functions. -/
theorem C42_pages {k : Nat} (h : k < 64) (v : BitVec 64) :
    IsFloor (2 ^ k) v.toNat (pageStart k v).toNat ∧
    (pageStart k v).toNat + (pageOffset k v).toNat = v.toNat ∧
    (pageOffset k v).toNat < 2 ^ k ∧
    ((∃ y, 2 ^ k ∣ y ∧ v.toNat ≤ y ∧ y < 2 ^ 64) → IsCeil (2 ^ k) v.toNat (pageAlign k v).toNat) ∧
    pageDown k v = pageStart k v ∧ pageUp k v = pageAlign k v := by
  have e1 : pageStart k v = roundDown v (BitVec.twoPow 64 k) := by
    unfold pageStart roundDown
    rw [pageSize_eq]
  have e2 : pageAlign k v = roundUp v (BitVec.twoPow 64 k) := by
    unfold pageAlign roundUp
    rw [pageSize_eq]
  have e3 : (pageOffset k v).toNat = v.toNat % 2 ^ k := by
    have := and_mask h v
    rw [← pageSize_eq] at this
    exact this
  have e4 : (pageStart k v).toNat = v.toNat / 2 ^ k * 2 ^ k := by
    rw [e1]
    exact and_not_mask h v
  refine ⟨by rw [e1]; exact C42_round_down h v, ?_, ?_, ?_, rfl, rfl⟩
  · rw [e3, e4, Nat.mul_comm]
    exact Nat.div_add_mod _ _
  · rw [e3]
    exact Nat.mod_lt _ (Nat.pow_pos (by omega))
  · rw [e2]
    exact (C42_round_up h v).1

example : roundDown (0x12345 : BitVec 64) (BitVec.twoPow 64 12) = 0x12000 := by decide
example : roundUp (0x12345 : BitVec 64) (BitVec.twoPow 64 12) = 0x13000 := by decide
example : alignDown (5 : BitVec 64) (BitVec.twoPow 64 12) = 0 := by decide
example : ∃ y, 2 ^ 12 ∣ y ∧ (0x12345 : BitVec 64).toNat ≤ y ∧ y < 2 ^ 64 :=
  ⟨0x13000, by decide, by decide, by decide⟩

/-! ### C44 -/

/-- C44: the protection has exactly the bits that the string shows (bit 0 read,
bit 1 write, bit 2 execute) and no other, for any three characters, junk
included. -/
theorem C44_perms (a b c : Byte) (rest : List Byte) : ∃ p, perms2prot (a :: b :: c :: rest) = some p ∧
    ∀ i, p.getLsbD i = ((decide (i = 0) && decide (a = 114)) || (decide (i = 1) && decide (b = 119)) ||
      (decide (i = 2) && decide (c = 120))) := by
  refine ⟨_, rfl, ?_⟩
  intro i
  have hr : ∀ j, PROT_READ.getLsbD j = decide (j = 0) := by
    intro j
    rw [show PROT_READ = BitVec.twoPow 32 0 from rfl, BitVec.getLsbD_twoPow]
    simp [eq_comm]
  have hw : ∀ j, PROT_WRITE.getLsbD j = decide (j = 1) := by
    intro j
    rw [show PROT_WRITE = BitVec.twoPow 32 1 from rfl, BitVec.getLsbD_twoPow]
    simp [eq_comm]
  have hx : ∀ j, PROT_EXEC.getLsbD j = decide (j = 2) := by
    intro j
    rw [show PROT_EXEC = BitVec.twoPow 32 2 from rfl, BitVec.getLsbD_twoPow]
    simp [eq_comm]
  have hz : (0 : BitVec 32).getLsbD i = false := BitVec.getLsbD_zero
  by_cases ha : a = 114 <;> by_cases hb : b = 119 <;> by_cases hc : c = 120 <;>
    simp only [ha, hb, hc, if_true, if_false, BitVec.getLsbD_or, hz, hr, hw, hx,
      decide_true, decide_false, Bool.and_true, Bool.and_false, Bool.false_or, Bool.or_false]

theorem and_twoPow_ne {p : BitVec 32} {k : Nat} (h : k < 32) :
    p &&& BitVec.twoPow 32 k ≠ 0#32 ↔ p.getLsbD k = true := by
  rw [BitVec.and_twoPow]
  cases hp : p.getLsbD k with
  | false => simp
  | true =>
    simp only [if_true, iff_true, ne_eq]
    intro e
    have := congrArg (fun x : BitVec 32 => x.getLsbD k) e
    simp [h] at this

/-- C44: the ELF flags have R (bit 2), W (bit 1), X (bit 0) exactly when the
protection has read (bit 0), write (bit 1), execute (bit 2), and nothing else,
whatever other bits the protection has. -/
theorem C44_flags (p : BitVec 32) : ∀ i, (prot2flags p).getLsbD i =
    ((decide (i = 2) && p.getLsbD 0) || (decide (i = 1) && p.getLsbD 1) ||
      (decide (i = 0) && p.getLsbD 2)) := by
  intro i
  have h0 : p &&& PROT_READ ≠ 0#32 ↔ p.getLsbD 0 = true := and_twoPow_ne (k := 0) (by omega)
  have h1 : p &&& PROT_WRITE ≠ 0#32 ↔ p.getLsbD 1 = true := and_twoPow_ne (k := 1) (by omega)
  have h2 : p &&& PROT_EXEC ≠ 0#32 ↔ p.getLsbD 2 = true := and_twoPow_ne (k := 2) (by omega)
  have hr : ∀ j, PF_R.getLsbD j = decide (j = 2) := by
    intro j
    rw [show PF_R = BitVec.twoPow 32 2 from rfl, BitVec.getLsbD_twoPow]
    simp [eq_comm]
  have hw : ∀ j, PF_W.getLsbD j = decide (j = 1) := by
    intro j
    rw [show PF_W = BitVec.twoPow 32 1 from rfl, BitVec.getLsbD_twoPow]
    simp [eq_comm]
  have hx : ∀ j, PF_X.getLsbD j = decide (j = 0) := by
    intro j
    rw [show PF_X = BitVec.twoPow 32 0 from rfl, BitVec.getLsbD_twoPow]
    simp [eq_comm]
  unfold prot2flags
  dsimp only
  have e0 : (if p &&& PROT_READ ≠ 0#32 then PF_R else 0).getLsbD i = (decide (i = 2) && p.getLsbD 0) := by
    by_cases h : p &&& PROT_READ ≠ 0#32
    · rw [if_pos h, h0.1 h, hr, Bool.and_true]
    · rw [if_neg h]
      have : p.getLsbD 0 = false := by simpa using mt h0.2 h
      rw [this, Bool.and_false]
      exact BitVec.getLsbD_zero
  have e1 : (if p &&& PROT_WRITE ≠ 0#32 then PF_W else 0).getLsbD i = (decide (i = 1) && p.getLsbD 1) := by
    by_cases h : p &&& PROT_WRITE ≠ 0#32
    · rw [if_pos h, h1.1 h, hw, Bool.and_true]
    · rw [if_neg h]
      have : p.getLsbD 1 = false := by simpa using mt h1.2 h
      rw [this, Bool.and_false]
      exact BitVec.getLsbD_zero
  have e2 : (if p &&& PROT_EXEC ≠ 0#32 then PF_X else 0).getLsbD i = (decide (i = 0) && p.getLsbD 2) := by
    by_cases h : p &&& PROT_EXEC ≠ 0#32
    · rw [if_pos h, h2.1 h, hx, Bool.and_true]
    · rw [if_neg h]
      have : p.getLsbD 2 = false := by simpa using mt h2.2 h
      rw [this, Bool.and_false]
      exact BitVec.getLsbD_zero
  rw [BitVec.getLsbD_or, BitVec.getLsbD_or, BitVec.getLsbD_or]
  have hz : (0 : BitVec 32).getLsbD i = false := BitVec.getLsbD_zero
  have e0' : (if p &&& PROT_READ ≠ 0 then PF_R else 0).getLsbD i = _ := e0
  have e1' : (if p &&& PROT_WRITE ≠ 0 then PF_W else 0).getLsbD i = _ := e1
  have e2' : (if p &&& PROT_EXEC ≠ 0 then PF_X else 0).getLsbD i = _ := e2
  rw [hz, e0', e1', e2', Bool.false_or]

example : perms2prot [114, 45, 120, 112, 0] = some 5 := by decide
example : prot2flags 5 = 5 := by decide
example : prot2flags 3 = 6 := by decide

end Ulp.Align
