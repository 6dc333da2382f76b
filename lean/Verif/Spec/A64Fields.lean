/-
Specification: what AArch64 relocations do to instruction words (AAELF64, "Static
relocation codes"), by relocation number.  Independent of the ulpatch sources.
-/
import Verif.Spec.A64Imm
import Verif.Spec.A64Psabi
namespace Ulp.Psabi
open A64 (Field)

/-- Types that put bits `lsb`, ..., `lsb + n - 1` of the value into an immediate field:
the field, `lsb` and `n`. -/
def a64Insn (type : Nat) : Option (Field × Nat × Nat) :=
  match type with
  | 263 => some (.imm16, 0, 16)   -- MOVW_UABS_G0
  | 264 => some (.imm16, 0, 16)   -- MOVW_UABS_G0_NC
  | 265 => some (.imm16, 16, 16)  -- MOVW_UABS_G1
  | 266 => some (.imm16, 16, 16)  -- MOVW_UABS_G1_NC
  | 267 => some (.imm16, 32, 16)  -- MOVW_UABS_G2
  | 268 => some (.imm16, 32, 16)  -- MOVW_UABS_G2_NC
  | 269 => some (.imm16, 48, 16)  -- MOVW_UABS_G3
  | 273 => some (.imm19, 2, 19)   -- LD_PREL_LO19
  | 274 => some (.adr, 0, 21)     -- ADR_PREL_LO21
  | 275 => some (.adr, 12, 21)    -- ADR_PREL_PG_HI21
  | 276 => some (.adr, 12, 21)    -- ADR_PREL_PG_HI21_NC
  | 277 => some (.imm12, 0, 12)   -- ADD_ABS_LO12_NC
  | 278 => some (.imm12, 0, 12)   -- LDST8_ABS_LO12_NC
  | 279 => some (.imm14, 2, 14)   -- TSTBR14
  | 280 => some (.imm19, 2, 19)   -- CONDBR19
  | 282 => some (.imm26, 2, 26)   -- JUMP26
  | 283 => some (.imm26, 2, 26)   -- CALL26
  | 284 => some (.imm12, 1, 11)   -- LDST16_ABS_LO12_NC
  | 285 => some (.imm12, 2, 10)   -- LDST32_ABS_LO12_NC
  | 286 => some (.imm12, 3, 9)    -- LDST64_ABS_LO12_NC
  | 288 => some (.imm16, 0, 16)   -- MOVW_PREL_G0_NC
  | 290 => some (.imm16, 16, 16)  -- MOVW_PREL_G1_NC
  | 292 => some (.imm16, 32, 16)  -- MOVW_PREL_G2_NC
  | 299 => some (.imm12, 4, 8)    -- LDST128_ABS_LO12_NC
  | _ => none

/-- Types that make the instruction MOVZ or MOVN, by the sign of the value: the lowest
bit used. -/
def a64Movnz (type : Nat) : Option Nat :=
  match type with
  | 270 => some 0   -- MOVW_SABS_G0
  | 271 => some 16  -- MOVW_SABS_G1
  | 272 => some 32  -- MOVW_SABS_G2
  | 287 => some 0   -- MOVW_PREL_G0
  | 289 => some 16  -- MOVW_PREL_G1
  | 291 => some 32  -- MOVW_PREL_G2
  | 293 => some 48  -- MOVW_PREL_G3
  | _ => none

/-- Bytes of the data types. -/
def a64DataWidth (type : Nat) : Option Nat :=
  match type with
  | 257 => some 8 | 260 => some 8
  | 258 => some 4 | 261 => some 4
  | 259 => some 2 | 262 => some 2
  | _ => none

/-- `w'` is the instruction `w` relocated with the value `X`.  MOVZ and MOVN differ in
bits 30:29 (`10` and `00`), and MOVN has the inverted bits of the value. -/
structure Relocated (type : Nat) (X : BitVec 64) (w w' : BitVec 32) : Prop where
  field : ∀ fld lsb n, a64Insn type = some (fld, lsb, n) →
    fld.Updated w w' ((X.extractLsb' lsb n).setWidth 64)
  movnz : ∀ lsb, a64Movnz type = some lsb →
    (∀ k, k < 16 → w'.getLsbD (5 + k) = (X.getLsbD (lsb + k) ^^ X.msb)) ∧
    w'.getLsbD 30 = !X.msb ∧ w'.getLsbD 29 = false ∧
    ∀ j, j < 32 → ¬ (5 ≤ j ∧ j < 21) → j ≠ 29 → j ≠ 30 → w'.getLsbD j = w.getLsbD j

/-- An instruction that can be relocated: not `BRK #0x100`; and for the signed types it
is of the class of MOVZ, MOVN and MOVK. -/
def Sensible (type : Nat) (w : BitVec 32) : Prop :=
  w ≠ 0xd4202000 ∧ (a64Movnz type ≠ none → w.extractLsb' 23 6 = 0b100101)

end Ulp.Psabi
