import Verif.Proof.Mem
import Verif.Proof.A64Insn
import Verif.Proof.A64Decode
import Verif.Proof.BitsA64
import Verif.Model.A64Reloc
import Verif.Spec.A64Psabi
namespace Ulp.A64Reloc
open A64Insn

/-! ### Bits -/

theorem ones_getLsbD (n k : Nat) (h : n < 64) :
    (((1 : BitVec 64) <<< n) - 1).getLsbD k = decide (k < n) := by
  have e : ((1 : BitVec 64) <<< n) - 1 = BitVec.ofNat 64 (2^n - 1) := by
    apply BitVec.eq_of_toNat_eq
    have h2 : (2:Nat)^n < 2^64 := Nat.pow_lt_pow_right (by omega) h
    have h1 : 0 < (2:Nat)^n := Nat.pos_of_ne_zero (by simp)
    rw [BitVec.toNat_sub, BitVec.toNat_shiftLeft, BitVec.toNat_ofNat]
    have : (1 : BitVec 64).toNat = 1 := rfl
    rw [this, Nat.shiftLeft_eq, Nat.one_mul, Nat.mod_eq_of_lt h2]
    omega
  rw [e]
  by_cases hk : k < 64
  · exact mask_getLsbD _ _ _ hk
  · rw [BitVec.getLsbD_of_ge _ _ (by omega)]
    simp; omega

theorem immMask_getLsbD (lsb len k : Nat) (h : lsb + len < 64) :
    ((((1 : BitVec 64) <<< (lsb + len)) - 1) >>> lsb).getLsbD k = decide (k < len) := by
  rw [BitVec.getLsbD_ushiftRight, ones_getLsbD _ _ h]
  congr 1
  apply propext; omega

theorem immMask1_getLsbD (lsb len k : Nat) (h : lsb + len < 64) :
    (((((1 : BitVec 64) <<< (lsb + len)) - 1) >>> lsb) >>> 1).getLsbD k = decide (k + 1 < len) := by
  rw [BitVec.getLsbD_ushiftRight, immMask_getLsbD _ _ _ h]
  congr 1
  apply propext; omega

/-- The overflow test of `reloc_insn_imm` is a signed range test. -/
theorem hi_eq (sv : BitVec 64) (lsb len : Nat) (h : lsb + len < 64) (hl : 0 < len) :
    (sv &&& ~~~ (((((1 : BitVec 64) <<< (lsb + len)) - 1) >>> lsb) >>> 1)).sshiftRight (len - 1)
      = sv.sshiftRight (len - 1) := by
  have hm : (sv &&& ~~~ (((((1 : BitVec 64) <<< (lsb + len)) - 1) >>> lsb) >>> 1)).msb = sv.msb := by
    rw [BitVec.msb_and, BitVec.msb_not]
    have : (((((1 : BitVec 64) <<< (lsb + len)) - 1) >>> lsb) >>> 1).msb = false := by
      rw [BitVec.msb_eq_getLsbD_last, immMask1_getLsbD _ _ _ h]
      simp; omega
    rw [this]; simp
  apply BitVec.eq_of_getLsbD_eq
  intro i hi
  rw [BitVec.getLsbD_sshiftRight, BitVec.getLsbD_sshiftRight, hm]
  by_cases hb : len - 1 + i < 64
  · rw [if_pos hb, if_pos hb, BitVec.getLsbD_and, BitVec.getLsbD_not, immMask1_getLsbD _ _ _ h]
    have : ¬ (len - 1 + i + 1 < len) := by omega
    simp [this, hb]
  · rw [if_neg hb, if_neg hb]

theorem two_test (hi : BitVec 64) : 2 ≤ (hi + 1).toNat ↔ ¬ (-1 ≤ hi.toInt ∧ hi.toInt < 1) := by
  rw [BitVec.toNat_add]
  have : (1 : BitVec 64).toNat = 1 := rfl
  rw [this, BitVec.toInt_eq_toNat_bmod, Int.bmod_def]
  have := hi.isLt
  omega

theorem ediv_range (x : Int) (k : Nat) (n : Nat) :
    (-(n:Int) ≤ x / 2^k ∧ x / 2^k < n) ↔ (-(n * 2^k : Int) ≤ x ∧ x < n * 2^k) := by
  have h2 : (0:Int) < 2^k := Int.pow_pos (by omega)
  rw [Int.ediv_lt_iff_lt_mul h2, Int.le_ediv_iff_mul_le h2, Int.neg_mul]

theorem relocImm_ovf (op : Op) (place : Addr) (val : BitVec 64) (lsb len : Nat) (t : ImmType)
    (insn : BitVec 32) (h : lsb + len < 64) (hl : 0 < len) :
    (relocImm op place val lsb len t insn).2 = false ↔
      (-(2^(lsb + len - 1) : Int) ≤ (doReloc op place val).toInt ∧
        (doReloc op place val).toInt < 2^(lsb + len - 1)) := by
  unfold relocImm
  dsimp only
  rw [hi_eq _ _ _ h hl]
  rw [decide_eq_false_iff_not, two_test, Classical.not_not]
  rw [BitVec.toInt_sshiftRight, BitVec.toInt_sshiftRight, Int.shiftRight_eq_div_pow,
    Int.shiftRight_eq_div_pow]
  generalize (doReloc op place val).toInt = x
  have e : lsb + len - 1 = (len - 1) + lsb := by omega
  have k1 := ediv_range (x / ↑(2^lsb)) (len - 1) 1
  have k2 := ediv_range x lsb (2^(len-1))
  push_cast at *
  rw [k1, e, Int.pow_add]
  simp only [Int.one_mul]
  exact k2

theorem relocMovw_ovf (op : Op) (place : Addr) (val : BitVec 64) (lsb : Nat) (nz : Bool)
    (insn : BitVec 32) :
    (relocMovw op place val lsb nz insn).2 = false ↔
      ((if nz then -(2^(16 + lsb) : Int) else 0) ≤ (doReloc op place val).toInt ∧
        (doReloc op place val).toInt < 2^(16 + lsb)) := by
  unfold relocMovw
  dsimp only
  rw [decide_eq_false_iff_not]
  generalize doReloc op place val = v
  have hI : (v.sshiftRight lsb).toInt = v.toInt / 2^lsb := by
    rw [BitVec.toInt_sshiftRight, Int.shiftRight_eq_div_pow]; push_cast; rfl
  have h2 : (0:Int) < 2^lsb := Int.pow_pos (by omega)
  have hN : (~~~ (v.sshiftRight lsb)).toInt = - (v.toInt / 2^lsb) - 1 := by
    rw [← hI, BitVec.toInt_not, BitVec.toInt_eq_toNat_bmod, Int.bmod_def, Int.bmod_def]
    have := (v.sshiftRight lsb).isLt
    omega
  have key : ∀ u : BitVec 64, ¬ (0xffff < u.toNat) ↔ (0 ≤ u.toInt ∧ u.toInt < 65536) := by
    intro u
    rw [BitVec.toInt_eq_toNat_bmod, Int.bmod_def]
    have := u.isLt
    omega
  rw [key]
  have e : (2:Int)^(16 + lsb) = 65536 * 2^lsb := by rw [Int.pow_add]; rfl
  have hb1 : (0 ≤ v.toInt / 2^lsb) ↔ 0 ≤ v.toInt := by
    rw [Int.le_ediv_iff_mul_le h2, Int.zero_mul]
  have hb2 : (v.toInt / 2^lsb < 65536) ↔ v.toInt < 65536 * 2^lsb := by
    rw [Int.ediv_lt_iff_lt_mul h2]
  have hb3 : (-65536 ≤ v.toInt / 2^lsb) ↔ -(65536 * 2^lsb) ≤ v.toInt := by
    rw [Int.le_ediv_iff_mul_le h2, Int.neg_mul]
  have hp : (0:Int) < 65536 * 2^lsb := Int.mul_pos (by omega) h2
  cases nz
  · simp only [Bool.false_eq_true, if_false]
    rw [hI, e, hb1, hb2]
  · simp only [if_true]
    by_cases hs : 0 ≤ v.toInt
    · rw [if_pos hs, hI, e, hb1, hb2]
      constructor
      · intro h; omega
      · intro h; omega
    · rw [if_neg hs, hN, e, ← hb3]
      constructor
      · intro h
        exact ⟨by omega, by omega⟩
      · intro h
        refine ⟨?_, by omega⟩
        have : v.toInt / 2^lsb < 0 := by
          apply Int.lt_of_not_ge; intro hc; exact hs (hb1.1 hc)
        omega

theorem relocData_ovf (op : Op) (place : Addr) (val : BitVec 64) (len : Nat) (h : len ≠ 64) :
    (relocData op place val len).2 = false ↔
      match op with
      | .abs => (0 ≤ (doReloc op place val).toInt ∧ (doReloc op place val).toInt < 2^len)
      | _ => (-(2:Int)^(len-1) ≤ (doReloc op place val).toInt ∧ (doReloc op place val).toInt < 2^(len-1)) := by
  unfold relocData
  dsimp only
  rw [if_neg h]
  cases op <;> simp


/-! ### Fields -/

theorem relocImm_word (op : Op) (place : Addr) (val : BitVec 64) (lsb len : Nat) (t : ImmType)
    (insn : BitVec 32) : (relocImm op place val lsb len t insn).1 =
    encodeImm t insn ((doReloc op place val).sshiftRight lsb &&&
      ((((1 : BitVec 64) <<< (lsb + len)) - 1) >>> lsb)) := rfl

/-- A contiguous field of at least `len` bits gets the scaled value, zero
extended; everything else is kept. -/
theorem relocImm_bits {t : ImmType} {lo n : Nat} (hc : contig t = some (lo, n)) (op : Op)
    (place : Addr) (val : BitVec 64) (lsb len : Nat) (h : lsb + len < 64)
    (insn : BitVec 32) (hne : insn ≠ BREAK_FAULT) (j : Nat) (hj : j < 32) :
    (relocImm op place val lsb len t insn).1.getLsbD j =
      if lo ≤ j ∧ j < lo + n then
        ((doReloc op place val).sshiftRight lsb).getLsbD (j - lo) && decide (j - lo < len)
      else insn.getLsbD j := by
  rw [relocImm_word, encode_contig hc _ _ hne _ hj, BitVec.getLsbD_and, immMask_getLsbD _ _ _ h]

theorem relocImm_field {t : ImmType} {lo n : Nat} (hc : contig t = some (lo, n)) (op : Op)
    (place : Addr) (val : BitVec 64) (lsb len : Nat) (h : lsb + len < 64)
    (insn : BitVec 32) (hne : insn ≠ BREAK_FAULT) :
    (relocImm op place val lsb len t insn).1.extractLsb' lo n =
      (((doReloc op place val).sshiftRight lsb).setWidth len).setWidth n := by
  have hb := contig_bound hc
  apply BitVec.eq_of_getLsbD_eq
  intro i hi
  rw [BitVec.getLsbD_extractLsb', relocImm_bits hc _ _ _ _ _ h _ hne _ (by omega), if_pos (by omega)]
  have e : lo + i - lo = i := by omega
  simp only [e, hi, decide_true, Bool.true_and, BitVec.getLsbD_setWidth]
  rw [Bool.and_comm]

theorem relocImm_keep {t : ImmType} {lo n : Nat} (hc : contig t = some (lo, n)) (op : Op)
    (place : Addr) (val : BitVec 64) (lsb len : Nat) (h : lsb + len < 64)
    (insn : BitVec 32) (hne : insn ≠ BREAK_FAULT) (a k : Nat) (hk : a + k ≤ 32)
    (hd : a + k ≤ lo ∨ lo + n ≤ a) :
    (relocImm op place val lsb len t insn).1.extractLsb' a k = insn.extractLsb' a k := by
  apply BitVec.eq_of_getLsbD_eq
  intro i hi
  rw [BitVec.getLsbD_extractLsb', BitVec.getLsbD_extractLsb',
    relocImm_bits hc _ _ _ _ _ h _ hne _ (by omega), if_neg (by omega)]

theorem relocAdr_bits (op : Op) (place : Addr) (val : BitVec 64) (lsb : Nat) (h : lsb + 21 < 64)
    (insn : BitVec 32) (hne : insn ≠ BREAK_FAULT) (j : Nat) (hj : j < 32) :
    (relocImm op place val lsb 21 .adr insn).1.getLsbD j =
      if 29 ≤ j ∧ j < 31 then ((doReloc op place val).sshiftRight lsb).getLsbD (j - 29)
      else if 5 ≤ j ∧ j < 24 then ((doReloc op place val).sshiftRight lsb).getLsbD (j - 3)
      else insn.getLsbD j := by
  rw [relocImm_word, encode_adr _ _ hne _ hj]
  simp only [BitVec.getLsbD_and, immMask_getLsbD _ _ _ h]
  by_cases h1 : 29 ≤ j ∧ j < 31
  · have : j - 29 < 21 := by omega
    simp [this, h1]
  · by_cases h2 : 5 ≤ j ∧ j < 24
    · have : j - 3 < 21 := by omega
      have e : 2 + (j - 5) = j - 3 := by omega
      simp [this, h1, h2, e]
    · simp only [if_neg h1, if_neg h2]

theorem relocAdr_field (op : Op) (place : Addr) (val : BitVec 64) (lsb : Nat) (h : lsb + 21 < 64)
    (insn : BitVec 32) (hne : insn ≠ BREAK_FAULT) :
    ((relocImm op place val lsb 21 .adr insn).1.extractLsb' 5 19 ++
      (relocImm op place val lsb 21 .adr insn).1.extractLsb' 29 2 : BitVec 21) =
      ((doReloc op place val).sshiftRight lsb).setWidth 21 := by
  apply BitVec.eq_of_getLsbD_eq
  intro i hi
  refine Eq.trans (BitVec.getLsbD_append ..) ?_
  rw [BitVec.getLsbD_setWidth]
  by_cases h2 : i < 2
  · rw [if_pos h2, BitVec.getLsbD_extractLsb', relocAdr_bits _ _ _ _ h _ hne _ (by omega),
      if_pos (by omega)]
    have e : 29 + i - 29 = i := by omega
    simp [e, h2, hi]
  · rw [if_neg h2, BitVec.getLsbD_extractLsb', relocAdr_bits _ _ _ _ h _ hne _ (by omega),
      if_neg (by omega), if_pos (by omega)]
    have e : 5 + (i - 2) - 3 = i := by omega
    have e2 : i - 2 < 19 := by omega
    simp [e, e2, hi]

theorem relocAdr_keep (op : Op) (place : Addr) (val : BitVec 64) (lsb : Nat) (h : lsb + 21 < 64)
    (insn : BitVec 32) (hne : insn ≠ BREAK_FAULT) (a k : Nat) (hk : a + k ≤ 32)
    (hd : a + k ≤ 5 ∨ (24 ≤ a ∧ a + k ≤ 29) ∨ 31 ≤ a) :
    (relocImm op place val lsb 21 .adr insn).1.extractLsb' a k = insn.extractLsb' a k := by
  apply BitVec.eq_of_getLsbD_eq
  intro i hi
  rw [BitVec.getLsbD_extractLsb', BitVec.getLsbD_extractLsb',
    relocAdr_bits _ _ _ _ h _ hne _ (by omega), if_neg (by omega), if_neg (by omega)]

/-! ### Memory -/

/-- Bytes of the field of an action. -/
def Act.width : Act → Nat
  | .nothing => 0
  | .data _ len => len / 8
  | _ => 4

/-- What an action stores, given the word that was there. -/
def bytesOf (a : Act) (place : Addr) (val : BitVec 64) (w : BitVec 32) : List Byte :=
  match a with
  | .nothing => []
  | .data op len => (relocData op place val len).1
  | .movw op lsb nz => leBytes 4 ((relocMovw op place val lsb nz w).1.setWidth 64)
  | .imm op lsb len t => leBytes 4 ((relocImm op place val lsb len t w).1.setWidth 64)

/-- Whether an action reports overflow. -/
def ovfOf (a : Act) (place : Addr) (val : BitVec 64) : Bool :=
  match a with
  | .nothing => false
  | .data op len => (relocData op place val len).2
  | .movw op lsb nz => (relocMovw op place val lsb nz 0).2
  | .imm op lsb len t => (relocImm op place val lsb len t 0).2

theorem run_eq (a : Act) (place : Addr) (val : BitVec 64) (m : Mem) :
    run a place val m = (m.write place (bytesOf a place val (word m place)), ovfOf a place val) := by
  cases a
  · simp only [run, bytesOf, ovfOf]
    congr 1
  · rfl
  · rfl
  · rfl

theorem bytesOf_length (a : Act) (place : Addr) (val : BitVec 64) (w : BitVec 32) :
    (bytesOf a place val w).length = a.width := by
  cases a <;> simp [bytesOf, Act.width, relocData]

theorem word_congr {m m' : Mem} {p : Addr}
    (h : ∀ i, i < 4 → m (p + BitVec.ofNat 64 i) = m' (p + BitVec.ofNat 64 i)) : word m p = word m' p := by
  have h0 := h 0 (by omega)
  have h1 : m (p + 1) = m' (p + 1) := h 1 (by omega)
  have h2 : m (p + 2) = m' (p + 2) := h 2 (by omega)
  have h3 : m (p + 3) = m' (p + 3) := h 3 (by omega)
  have e : p + BitVec.ofNat 64 0 = p := by simp
  rw [e] at h0
  unfold word
  rw [h0, h1, h2, h3]

theorem bytesOf_congr {m m' : Mem} {p : Addr} (a : Act) (val : BitVec 64)
    (h : ∀ i, i < a.width → m (p + BitVec.ofNat 64 i) = m' (p + BitVec.ofNat 64 i)) :
    bytesOf a p val (word m p) = bytesOf a p val (word m' p) := by
  cases a
  · rfl
  · rfl
  · rw [word_congr h]
  · rw [word_congr h]

/-- A word read back from its bytes. -/
theorem word_of_read {m : Mem} {p : Addr} {w : BitVec 32} (h : m.read p 4 = leBytes 4 (w.setWidth 64)) :
    word m p = w := by
  have hb : ∀ i, i < 4 → m (p + BitVec.ofNat 64 i) = (w.setWidth 64 >>> (8 * i)).setWidth 8 := by
    intro i hi
    have := congrArg (·[i]?) h
    simp only [Mem.read_getElem?, if_pos hi, leBytes, List.getElem?_map, List.getElem?_range hi,
      Option.map_some, Option.some.injEq] at this
    exact this
  have h0 := hb 0 (by omega)
  have h1 : m (p + 1) = _ := hb 1 (by omega)
  have h2 : m (p + 2) = _ := hb 2 (by omega)
  have h3 : m (p + 3) = _ := hb 3 (by omega)
  have e : p + BitVec.ofNat 64 0 = p := by simp
  rw [e] at h0
  unfold word
  rw [h0, h1, h2, h3]
  apply BitVec.eq_of_getLsbD_eq
  intro i hi
  refine Eq.trans (BitVec.getLsbD_append ..) ?_
  by_cases a1 : i < 8
  · rw [if_pos a1]
    simp [a1]
  · rw [if_neg a1]
    refine Eq.trans (BitVec.getLsbD_append ..) ?_
    by_cases a2 : i - 8 < 8
    · rw [if_pos a2]
      have : 8 + (i - 8) = i := by omega
      have i64 : i < 64 := by omega
      simp [a2, this, i64]
    · rw [if_neg a2]
      refine Eq.trans (BitVec.getLsbD_append ..) ?_
      by_cases a3 : i - 8 - 8 < 8
      · rw [if_pos a3]
        have : 16 + (i - 8 - 8) = i := by omega
        have i64 : i < 64 := by omega
        simp [a3, this, i64]
      · rw [if_neg a3]
        have : 24 + (i - 8 - 8 - 8) = i := by omega
        have a4 : i - 8 - 8 - 8 < 8 := by omega
        have i64 : i < 64 := by omega
        simp [a4, this, i64]

theorem applyAll_cons_ok {c chk r rs m m'} (h : applyAll c chk (r :: rs) m = some (m', 0)) :
    ∃ s a nc, c.syms[r.sym]? = some s ∧ table r.type = some (a, nc) ∧
      ¬ ((chk && !nc) = true ∧ ovfOf a (loc c r) (s.value + r.addend) = true) ∧
      applyAll c (chk && !nc) rs
        (m.write (loc c r) (bytesOf a (loc c r) (s.value + r.addend) (word m (loc c r)))) = some (m', 0) := by
  unfold applyAll at h
  cases hs : c.syms[r.sym]? with
  | none => rw [hs] at h; exact absurd h (by simp)
  | some s =>
    rw [hs] at h
    dsimp only at h
    cases ht : table r.type with
    | none => rw [ht] at h; exact absurd h (by simp [RELOC_ENOEXEC])
    | some p =>
      obtain ⟨a, nc⟩ := p
      rw [ht] at h
      dsimp only at h
      rw [run_eq] at h
      dsimp only at h
      by_cases h0 : ((chk && !nc) && ovfOf a (loc c r) (s.value + r.addend)) = true
      · rw [if_pos h0] at h
        exact absurd h (by simp [RELOC_ENOEXEC])
      · rw [if_neg h0] at h
        exact ⟨s, a, nc, rfl, rfl, by simpa using h0, h⟩

theorem width_table {n : Nat} {a : Act} {nc : Bool} (h : table n = some (a, nc)) :
    a.width = Psabi.a64Width n := by
  unfold table at h
  split at h <;> first
    | (injection h with h; injection h with h _; subst h; rfl)
    | cases h

/-- The fields of two relocations do not meet. -/
def Apart (c : RelaCtx) (r r' : Rela) : Prop :=
  Disjoint (loc c r) (Psabi.a64Width r.type) (loc c r') (Psabi.a64Width r'.type)

theorem applyAll_frame {c} (rs : List Rela) : ∀ {chk m m'},
    applyAll c chk rs m = some (m', 0) → ∀ x,
    (∀ r ∈ rs, ∀ i, i < Psabi.a64Width r.type → x ≠ loc c r + BitVec.ofNat 64 i) → m' x = m x := by
  induction rs with
  | nil => intro chk m m' h x _; simp only [applyAll, Option.some.injEq, Prod.mk.injEq] at h; rw [h.1]
  | cons r rs ih =>
    intro chk m m' h x hx
    obtain ⟨s, a, nc, _, ht, _, hrest⟩ := applyAll_cons_ok h
    rw [ih hrest x (fun r' hr' => hx r' (List.mem_cons_of_mem _ hr'))]
    apply Mem.write_out
    rw [bytesOf_length, width_table ht]
    apply Nat.le_of_not_lt
    intro hlt
    exact hx r (List.mem_cons_self ..) _ hlt (addr_eq_add_sub _ _)

/-- After success each field holds what its action makes of the original word. -/
theorem applyAll_values {c} (rs : List Rela) : ∀ {chk m m'},
    applyAll c chk rs m = some (m', 0) → rs.Pairwise (Apart c) →
    ∀ r ∈ rs, ∃ s a nc, c.syms[r.sym]? = some s ∧ table r.type = some (a, nc) ∧
      m'.read (loc c r) (Psabi.a64Width r.type) =
        bytesOf a (loc c r) (s.value + r.addend) (word m (loc c r)) := by
  induction rs with
  | nil => intro _ _ _ _ _ r hr; cases hr
  | cons r rs ih =>
    intro chk m m' h hp r' hr'
    obtain ⟨s, a, nc, hs, ht, _, hrest⟩ := applyAll_cons_ok h
    rw [List.pairwise_cons] at hp
    rcases List.mem_cons.1 hr' with rfl | hr'
    · refine ⟨s, a, nc, hs, ht, ?_⟩
      have hl : (bytesOf a (loc c r') (s.value + r'.addend) (word m (loc c r'))).length
          = Psabi.a64Width r'.type := by rw [bytesOf_length, width_table ht]
      have hw8 : Psabi.a64Width r'.type ≤ 8 := by unfold Psabi.a64Width; split <;> omega
      have := Mem.read_write_self m (loc c r')
        (bytesOf a (loc c r') (s.value + r'.addend) (word m (loc c r'))) (by omega)
      rw [hl] at this
      rw [← this]
      apply Mem.read_congr
      intro i hi
      apply applyAll_frame rs hrest
      intro r'' hr'' j hj
      exact hp.1 r'' hr'' i j hi hj
    · obtain ⟨s', a', nc', hs', ht', hv⟩ := ih hrest hp.2 r' hr'
      refine ⟨s', a', nc', hs', ht', ?_⟩
      rw [hv]
      apply bytesOf_congr
      intro i hi
      rw [width_table ht'] at hi
      apply Mem.write_out_of_disjoint (k := Psabi.a64Width r'.type) _ hi
      rw [bytesOf_length, width_table ht]
      exact hp.1 r' hr'


/-! ### Move-wide -/

theorem relocMovw_bits (op : Op) (place : Addr) (val : BitVec 64) (lsb : Nat) (nz : Bool)
    (insn : BitVec 32) (hcls : insn.extractLsb' 23 6 = 0b100101) (j : Nat) (hj : j < 32) :
    (relocMovw op place val lsb nz insn).1.getLsbD j =
      if 5 ≤ j ∧ j < 21 then
        ((doReloc op place val).sshiftRight lsb).getLsbD (j - 5)
          ^^ (nz && decide ((doReloc op place val).toInt < 0))
      else if nz = true ∧ j = 30 then decide (0 ≤ (doReloc op place val).toInt)
      else if nz = true ∧ j = 29 then false
      else insn.getLsbD j := by
  have hf : insn ≠ BREAK_FAULT := by
    rintro rfl
    exact absurd hcls (by decide)
  unfold relocMovw
  dsimp only
  generalize doReloc op place val = v
  cases nz
  · simp only [Bool.false_eq_true, if_false]
    rw [encode_contig (t := .i16) rfl _ _ hf _ hj]
    simp
  · simp only [if_true]
    have m3 : ∀ j, j < 32 → (~~~ ((3 : BitVec 32) <<< 29)).getLsbD j = decide (j ≠ 29 ∧ j ≠ 30) := by
      decide
    have m2 : ∀ j, j < 32 → ((2 : BitVec 32) <<< 29).getLsbD j = decide (j = 30) := by decide
    have cls26 : insn.getLsbD 25 = true := (A64.ext_bit hcls 2 (by decide)).trans (by decide)
    have bf25 : BREAK_FAULT.getLsbD 25 = false := by decide
    by_cases hs : 0 ≤ v.toInt
    · rw [if_pos hs, if_pos hs]
      have hne : (insn &&& ~~~ ((3 : BitVec 32) <<< 29)) ||| ((2 : BitVec 32) <<< 29) ≠ BREAK_FAULT := by
        intro h
        have := congrArg (·.getLsbD 25) h
        simp only [BitVec.getLsbD_or, BitVec.getLsbD_and, m3 25 (by decide), cls26, bf25] at this
        simp at this
      rw [encode_contig (t := .i16) rfl _ _ hne _ hj]
      have hl : ¬ v.toInt < 0 := by omega
      by_cases h1 : 5 ≤ j ∧ j < 21
      · simp [h1, hl]
      · rw [if_neg h1, if_neg (by omega), BitVec.getLsbD_or, BitVec.getLsbD_and, m3 j hj, m2 j hj]
        by_cases h2 : j = 30
        · subst h2; simp [hs]
        · by_cases h3 : j = 29
          · subst h3; simp
          · simp [h2, h3]
    · rw [if_neg hs, if_neg hs]
      have hne : (insn &&& ~~~ ((3 : BitVec 32) <<< 29)) ≠ BREAK_FAULT := by
        intro h
        have := congrArg (·.getLsbD 25) h
        simp only [BitVec.getLsbD_and, m3 25 (by decide), cls26, bf25] at this
        simp at this
      rw [encode_contig (t := .i16) rfl _ _ hne _ hj]
      have hl : v.toInt < 0 := by omega
      by_cases h1 : 5 ≤ j ∧ j < 21
      · have : j - 5 < 64 := by omega
        simp [h1, hl, this]
      · rw [if_neg h1, if_neg (by omega), BitVec.getLsbD_and, m3 j hj]
        by_cases h2 : j = 30
        · subst h2; simp [hs]
        · by_cases h3 : j = 29
          · subst h3; simp
          · simp [h2, h3]

end Ulp.A64Reloc
