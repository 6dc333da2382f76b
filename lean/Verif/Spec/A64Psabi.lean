/-
Specification: AArch64 ELF relocations (AAELF64, "Static relocation codes"), by
relocation number.  Independent of the ulpatch sources.
-/
import Verif.Model.Mem
namespace Ulp.Psabi

/-- The calculation of a relocation: `S+A`, `S+A-P`, `Page(S+A)-Page(P)`. -/
inductive Calc where
  | sa | sap | page
  deriving DecidableEq, Repr

def Calc.val (k : Calc) (SA P : BitVec 64) : BitVec 64 :=
  match k with
  | .sa => SA
  | .sap => SA - P
  | .page => (SA.extractLsb' 12 52 ++ (0 : BitVec 12)) - (P.extractLsb' 12 52 ++ (0 : BitVec 12))

/-- Calculation per type. -/
def a64Calc (type : Nat) : Option Calc :=
  if type = 260 ∨ type = 261 ∨ type = 262              -- PREL64, PREL32, PREL16
    ∨ type = 273 ∨ type = 274                          -- LD_PREL_LO19, ADR_PREL_LO21
    ∨ type = 279 ∨ type = 280 ∨ type = 282 ∨ type = 283 -- TSTBR14, CONDBR19, JUMP26, CALL26
    ∨ (287 ≤ type ∧ type ≤ 293)                        -- MOVW_PREL_G0 .. G3
  then some .sap
  else if type = 275 ∨ type = 276 then some .page       -- ADR_PREL_PG_HI21[_NC]
  else if (257 ≤ type ∧ type ≤ 259)                    -- ABS64, ABS32, ABS16
    ∨ (263 ≤ type ∧ type ≤ 272)                        -- MOVW_UABS_*, MOVW_SABS_*
    ∨ type = 277 ∨ type = 278                          -- ADD_ABS_LO12_NC, LDST8_ABS_LO12_NC
    ∨ (284 ≤ type ∧ type ≤ 286) ∨ type = 299           -- LDST16/32/64/128_ABS_LO12_NC
  then some .sa
  else none

/-- The overflow check of a type: `lo ≤ X < hi`; `none` for the types that have
no check. -/
def a64Range (type : Nat) : Option (Int × Int) :=
  match type with
  | 258 => some (-2^31, 2^32)  -- ABS32
  | 259 => some (-2^15, 2^16)  -- ABS16
  | 261 => some (-2^31, 2^32)  -- PREL32
  | 262 => some (-2^15, 2^16)  -- PREL16
  | 263 => some (0, 2^16)      -- MOVW_UABS_G0
  | 265 => some (0, 2^32)      -- MOVW_UABS_G1
  | 267 => some (0, 2^48)      -- MOVW_UABS_G2
  | 270 => some (-2^16, 2^16)  -- MOVW_SABS_G0
  | 271 => some (-2^32, 2^32)  -- MOVW_SABS_G1
  | 272 => some (-2^48, 2^48)  -- MOVW_SABS_G2
  | 273 => some (-2^20, 2^20)  -- LD_PREL_LO19
  | 274 => some (-2^20, 2^20)  -- ADR_PREL_LO21
  | 275 => some (-2^32, 2^32)  -- ADR_PREL_PG_HI21
  | 279 => some (-2^15, 2^15)  -- TSTBR14
  | 280 => some (-2^20, 2^20)  -- CONDBR19
  | 282 => some (-2^27, 2^27)  -- JUMP26
  | 283 => some (-2^27, 2^27)  -- CALL26
  | 287 => some (-2^16, 2^16)  -- MOVW_PREL_G0
  | 289 => some (-2^32, 2^32)  -- MOVW_PREL_G1
  | 291 => some (-2^48, 2^48)  -- MOVW_PREL_G2
  | _ => none

/-- The narrower check the loader documents for the 16- and 32-bit data types
(comment in `reloc_data`): absolute values unsigned, relative values signed. -/
def a64DataRange (type : Nat) : Option (Int × Int) :=
  match type with
  | 258 => some (0, 2^32)
  | 259 => some (0, 2^16)
  | 261 => some (-2^31, 2^31)
  | 262 => some (-2^15, 2^15)
  | _ => none

/-- Types without an overflow check: 64-bit data and the `_NC`/top-group ones. -/
def a64Unchecked (type : Nat) : Prop :=
  type = 257 ∨ type = 260 ∨ type = 264 ∨ type = 266 ∨ type = 268 ∨ type = 269 ∨ type = 276 ∨
  type = 277 ∨ type = 278 ∨ type = 284 ∨ type = 285 ∨ type = 286 ∨ type = 288 ∨ type = 290 ∨
  type = 292 ∨ type = 293 ∨ type = 299

/-- Bytes of the field. -/
def a64Width (type : Nat) : Nat :=
  match type with
  | 0 => 0
  | 257 => 8 | 260 => 8
  | 259 => 2 | 262 => 2
  | _ => 4

/-- Width and value of the absolute data relocations. -/
def a64Data (type : Nat) (S A _P : BitVec 64) : Option (Nat × BitVec 64) :=
  match type with
  | 257 => some (8, S + A)  -- ABS64
  | 258 => some (4, S + A)  -- ABS32
  | 259 => some (2, S + A)  -- ABS16
  | _ => none

end Ulp.Psabi
