/-
C14 and C18: immediate fields and generated branches on aarch64.
-/
import Verif.Proof.A64Insn
import Verif.Proof.A64Decode
import Verif.Proof.BitsA64
namespace Ulp.A64Insn
open A64

/-- The architectural field that each kind names. -/
def field : ImmType → Option Field
  | .adr => some .adr
  | .i26 => some .imm26
  | .i19 => some .imm19
  | .i16 => some .imm16
  | .i14 => some .imm14
  | .i12 => some .imm12
  | .i9 => some .imm9
  | .i7 => some .imm7
  | .i6 => some .imm6
  | .s => some .imms
  | .r => some .immr
  | .n => some .n
  | .max => none

theorem field_contig {t f} (h : field t = some f) (ha : t ≠ .adr) :
    ∃ lo n, contig t = some (lo, n) ∧ f.bits = bitsFrom lo n := by
  cases t <;> first | exact absurd rfl ha | (cases h; done) |
    (injection h with h; subst h; exact ⟨_, _, rfl, rfl⟩)

/-- C14: writing an immediate changes exactly the bits of the field, to the low
bits of the immediate. -/
theorem C14_encode (t : ImmType) (f : Field) (hf : field t = some f) (insn : BitVec 32)
    (imm : BitVec 64) (hne : insn ≠ BREAK_FAULT) : f.Updated insn (encodeImm t insn imm) imm := by
  by_cases ha : t = .adr
  · subst ha
    injection hf with hf; subst hf
    constructor
    · intro k j hk
      simp only [Field.bits, List.getElem?_append, bitsFrom_get] at hk
      simp only [bitsFrom, List.length_map, List.length_range] at hk
      split at hk
      · next h2 =>
        injection hk with hk; subst hk
        rw [encode_adr _ _ hne _ (by omega), if_pos (by omega)]
        congr 1; omega
      · next h2 =>
        split at hk
        · next h3 =>
          injection hk with hk; subst hk
          rw [encode_adr _ _ hne _ (by omega), if_neg (by omega), if_pos (by omega)]
          congr 1; omega
        · cases hk
    · intro j hj hnm
      simp only [Field.bits, List.mem_append, mem_bitsFrom] at hnm
      rw [encode_adr _ _ hne _ hj, if_neg (by omega), if_neg (by omega)]
  · obtain ⟨lo, n, hc, hb⟩ := field_contig hf ha
    have hbd := contig_bound hc
    constructor
    · intro k j hk
      rw [hb, bitsFrom_get] at hk
      split at hk
      · injection hk with hk; subst hk
        rw [encode_contig hc _ _ hne _ (by omega), if_pos (by omega)]
        congr 1; omega
      · cases hk
    · intro j hj hnm
      rw [hb, mem_bitsFrom] at hnm
      rw [encode_contig hc _ _ hne _ hj, if_neg hnm]

/-- C14: reading a field gives its bits, zero-extended. -/
theorem C14_decode (t : ImmType) (f : Field) (hf : field t = some f) (insn : BitVec 32) :
    f.Value insn (decodeImm t insn) := by
  intro k
  by_cases ha : t = .adr
  · subst ha
    injection hf with hf; subst hf
    rw [decode_adr]
    simp only [Field.bits, List.getElem?_append, bitsFrom_get]
    simp only [bitsFrom, List.length_map, List.length_range]
    by_cases h1 : k < 2
    · simp [h1]
    · by_cases h2 : k < 21
      · have : k - 2 < 19 := by omega
        simp [h1, h2, this]
      · have : ¬ k - 2 < 19 := by omega
        simp [h1, h2, this]
  · obtain ⟨lo, n, hc, hb⟩ := field_contig hf ha
    rw [hb, decode_contig hc, bitsFrom_get]
    by_cases h : k < n <;> simp [h]

/-- C14: what is read back after writing is the immediate modulo the field
width. -/
theorem C14_roundtrip (t : ImmType) (f : Field) (hf : field t = some f) (insn : BitVec 32)
    (imm : BitVec 64) (hne : insn ≠ BREAK_FAULT) :
    (decodeImm t (encodeImm t insn imm)).toNat = imm.toNat % 2 ^ f.bits.length := by
  have he := C14_encode t f hf insn imm hne
  have hd := C14_decode t f hf (encodeImm t insn imm)
  apply Nat.eq_of_testBit_eq
  intro k
  rw [Nat.testBit_mod_two_pow]
  have h1 : (decodeImm t (encodeImm t insn imm)).toNat.testBit k =
      (decodeImm t (encodeImm t insn imm)).getLsbD k := rfl
  have h2 : imm.toNat.testBit k = imm.getLsbD k := rfl
  rw [h1, h2, hd k]
  cases hk : f.bits[k]? with
  | some j =>
    have : k < f.bits.length := by
      have := List.getElem?_eq_some_iff.1 hk; exact this.1
    simp [this, he.1 k j hk]
  | none =>
    have : ¬ k < f.bits.length := by
      have := List.getElem?_eq_none_iff.1 hk; omega
    simp [this]

/-- C14: writing the same immediate again changes nothing, and unless the first
write produced the reserved fault instruction the last write wins. -/
theorem C14_overwrite (t : ImmType) (f : Field) (hf : field t = some f) (insn : BitVec 32)
    (a b : BitVec 64) (hne : insn ≠ BREAK_FAULT) :
    encodeImm t (encodeImm t insn a) a = encodeImm t insn a ∧
    (encodeImm t insn a ≠ BREAK_FAULT → encodeImm t (encodeImm t insn a) b = encodeImm t insn b) := by
  have key : ∀ b, encodeImm t insn a ≠ BREAK_FAULT →
      encodeImm t (encodeImm t insn a) b = encodeImm t insn b := by
    intro b h
    have h1 := C14_encode t f hf insn a hne
    have h2 := C14_encode t f hf (encodeImm t insn a) b h
    have h3 := C14_encode t f hf insn b hne
    apply BitVec.eq_of_getLsbD_eq
    intro j hj
    by_cases hm : j ∈ f.bits
    · obtain ⟨k, hk⟩ := List.mem_iff_getElem?.1 hm
      rw [h2.1 k j hk, h3.1 k j hk]
    · rw [h2.2 j hj hm, h1.2 j hj hm, h3.2 j hj hm]
  constructor
  · by_cases h : encodeImm t insn a = BREAK_FAULT
    · rw [h]; exact if_pos rfl
    · exact key a h
  · exact key b

/-- C14: the reserved fault instruction is never modified, and the unknown kind
produces it. -/
theorem C14_fault (t : ImmType) (insn : BitVec 32) (imm : BitVec 64) :
    encodeImm t BREAK_FAULT imm = BREAK_FAULT ∧ encodeImm .max insn imm = BREAK_FAULT := by
  constructor
  · exact if_pos rfl
  · unfold encodeImm
    split <;> rfl

/-- `bl +0x1000` from a zeroed BL, and an ADR with both parts of its field. -/
example : encodeImm .i26 0x94000000 0x400 = 0x94000400 ∧
    encodeImm .adr 0x10000000 0x1005 = 0x30008020 ∧ decodeImm .adr 0x30008020 = 0x1005 ∧
    (0x94000000 : BitVec 32) ≠ BREAK_FAULT := by decide

/-! ### C18 -/

theorem ext_encode26 (insn : BitVec 32) (imm : BitVec 64) (hne : insn ≠ BREAK_FAULT) :
    (encodeImm .i26 insn imm).extractLsb' 0 26 = imm.setWidth 26 ∧
    (encodeImm .i26 insn imm).extractLsb' 26 6 = insn.extractLsb' 26 6 := by
  constructor
  · apply BitVec.eq_of_getLsbD_eq
    intro i hi
    rw [BitVec.getLsbD_extractLsb', encode_contig (t := .i26) rfl _ _ hne _ (by omega),
      if_pos (by omega)]
    simp [hi]
  · apply BitVec.eq_of_getLsbD_eq
    intro i hi
    rw [BitVec.getLsbD_extractLsb', BitVec.getLsbD_extractLsb',
      encode_contig (t := .i26) rfl _ _ hne _ (by omega), if_neg (by omega)]

theorem branch_reach (a d : BitVec 64) (ha : a &&& 3 = 0) (hd : d &&& 3 = 0)
    (h1 : -2^27 ≤ (d - a).toInt) (h2 : (d - a).toInt < 2^27) :
    a + (((d - a).sshiftRight 2).setWidth 26 ++ (0 : BitVec 2) : BitVec 28).signExtend 64 = d := by
  have e := scale_append (d - a) 26 2 (by omega) (aligned4_low (aligned4_sub hd ha))
  have h3 := (fitsS28 (d - a)).2 ⟨h1, h2⟩
  have e' : (((d - a).sshiftRight 2).setWidth 26 ++ (0 : BitVec 2) : BitVec 28) = (d - a).setWidth 28 := e
  rw [e', ← h3, BitVec.add_comm, BitVec.sub_add_cancel]

theorem branchImm_ok (a d : BitVec 64) (ha : a &&& 3 = 0) (hd : d &&& 3 = 0)
    (h1 : -2^27 ≤ (d - a).toInt) (h2 : (d - a).toInt < 2^27) :
    branchImmCommon a d 0x08000000 = (d - a).toInt := by
  unfold branchImmCommon
  rw [if_neg (by rintro (h | h) <;> contradiction)]
  dsimp only
  rw [if_neg (by omega)]

theorem gen_ok (a d : BitVec 64) (h32 : a.toNat < 2^32) (ha : a &&& 3 = 0) (hd : d &&& 3 = 0)
    (h1 : -2^27 ≤ (d - a).toInt) (h2 : (d - a).toInt < 2^27) :
    genBranchImm (a.setWidth 32) d .nolink = encodeImm .i26 0x14000000 ((d - a).sshiftRight 2) ∧
    genBranchImm (a.setWidth 32) d .link = encodeImm .i26 0x94000000 ((d - a).sshiftRight 2) := by
  have e : (a.setWidth 32).setWidth 64 = a := by
    apply BitVec.eq_of_toNat_eq
    simp only [BitVec.toNat_setWidth]; omega
  have hlt : ¬ (0x08000000 : Int) ≤ (d - a).toInt := by omega
  constructor <;>
  · unfold genBranchImm
    simp only [e, branchImm_ok a d ha hd h1 h2, if_neg hlt, ofInt_div4]

/-- C18 for call sites below 4 GiB: the generated `B`/`BL`, fetched and executed
at `A`, continues at `D`; `BL` leaves the return address in x30. -/
theorem C18_a64_branch_partial (s : Cpu) (D : BitVec 64)
    (h32 : s.pc.toNat < 2^32) (ha : s.pc &&& 3 = 0) (hd : D &&& 3 = 0)
    (h1 : -2^27 ≤ (D - s.pc).toInt) (h2 : (D - s.pc).toInt < 2^27) :
    (fetch s.mem s.pc = genBranchImm (s.pc.setWidth 32) D .nolink →
      ∃ s', step s = some s' ∧ s'.pc = D ∧ s'.x = s.x ∧ s'.mem = s.mem) ∧
    (fetch s.mem s.pc = genBranchImm (s.pc.setWidth 32) D .link →
      ∃ s', step s = some s' ∧ s'.pc = D ∧ s'.x 30 = s.pc + 4 ∧ s'.mem = s.mem) := by
  obtain ⟨g1, g2⟩ := gen_ok s.pc D h32 ha hd h1 h2
  constructor
  · intro hf
    rw [g1] at hf
    obtain ⟨e1, e2⟩ := ext_encode26 0x14000000 ((D - s.pc).sshiftRight 2) (by decide)
    have hdec := decode_b (e2.trans (by decide))
    rw [e1] at hdec
    refine ⟨⟨D, s.x, s.mem⟩, ?_, rfl, rfl, rfl⟩
    unfold step
    rw [hf, hdec]
    show exec s (.b _) = _
    unfold exec
    dsimp only
    rw [branch_reach s.pc D ha hd h1 h2]
  · intro hf
    rw [g2] at hf
    obtain ⟨e1, e2⟩ := ext_encode26 0x94000000 ((D - s.pc).sshiftRight 2) (by decide)
    have hdec := decode_bl (e2.trans (by decide))
    rw [e1] at hdec
    refine ⟨{ s.set 30 (s.pc + 4) with pc := D }, ?_, rfl,
      (if_pos (by decide) : (if (30 : Fin 31).val = (30 : BitVec 5).toNat then s.pc + 4 else s.x 30) = _), rfl⟩
    unfold step
    rw [hf, hdec]
    show exec s (.bl _) = _
    unfold exec
    dsimp only
    rw [branch_reach s.pc D ha hd h1 h2]

/-- C18: otherwise (misaligned, too far, or not a plain branch) the fault
instruction is produced. -/
theorem C18_a64_fault (a : BitVec 32) (D : BitVec 64) (t : BranchType)
    (h : a.setWidth 64 &&& 3 ≠ 0 ∨ D &&& 3 ≠ 0 ∨ (D - a.setWidth 64).toInt < -2^27 ∨
      2^27 ≤ (D - a.setWidth 64).toInt ∨ (t ≠ .link ∧ t ≠ .nolink)) :
    genBranchImm a D t = BREAK_FAULT := by
  unfold genBranchImm
  dsimp only
  by_cases ho : 0x08000000 ≤ branchImmCommon (a.setWidth 64) D 0x08000000
  · rw [if_pos ho]
  · rw [if_neg ho]
    unfold branchImmCommon at ho
    split at ho
    · omega
    · next hal =>
      dsimp only at ho
      split at ho
      · omega
      · next hr =>
        rcases h with h | h | h | h | h
        · exact absurd (.inl h) hal
        · exact absurd (.inr h) hal
        · omega
        · omega
        · cases t <;> first | exact absurd rfl h.1 | exact absurd rfl h.2 | rfl

/-- Violation of C18: the call-site address is passed as a 32-bit integer, so for
a program above 4 GiB (every PIE) a near, aligned destination is refused. -/
theorem C18_high_address_refused :
    ∃ A D : BitVec 64, A &&& 3 = 0 ∧ D &&& 3 = 0 ∧ (D - A).toInt = 0x1000 ∧
      genBranchImm (A.setWidth 32) D .link = BREAK_FAULT :=
  ⟨0xaaaaaaaa0000, 0xaaaaaaaa1000, by decide, by decide, by decide, by decide⟩

/-- ... and with unlucky addresses a branch to a wrong place is generated. -/
theorem C18_high_address_wrong :
    ∃ A D : BitVec 64, A &&& 3 = 0 ∧ D &&& 3 = 0 ∧ 2^27 ≤ (D - A).toNat ∧
      genBranchImm (A.setWidth 32) D .link = 0x94000400 :=
  ⟨0x100400000, 0x401000, by decide, by decide, by decide, by decide⟩

example : genBranchImm 0x400000 0x401000 .link = 0x94000400 ∧
    ((0x400000 : BitVec 64).toNat < 2^32 ∧ (0x401000 - 0x400000 : BitVec 64).toInt < 2^27) := by decide

end Ulp.A64Insn
