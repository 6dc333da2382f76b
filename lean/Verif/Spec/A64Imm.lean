/-
Specification: where the immediate fields of A64 instructions are, as lists of
instruction bit numbers, least significant immediate bit first (Arm ARM,
C4.1 encodings).  Independent of the ulpatch sources.
-/
import Verif.Model.Mem
namespace Ulp.A64

/-- Bits `lo, lo+1, ..., lo+n-1`. -/
def bitsFrom (lo n : Nat) : List Nat := (List.range n).map (lo + ·)

/-- Named immediate fields. -/
inductive Field where
  /-- immlo = bits 30:29, immhi = bits 23:5 -/
  | adr
  | imm26 | imm19 | imm16 | imm14 | imm12 | imm9 | imm7 | imm6 | imms | immr | n
  deriving DecidableEq, Repr

/-- The instruction bits that hold immediate bits 0, 1, 2, ... -/
def Field.bits : Field → List Nat
  | .adr => bitsFrom 29 2 ++ bitsFrom 5 19
  | .imm26 => bitsFrom 0 26
  | .imm19 => bitsFrom 5 19
  | .imm16 => bitsFrom 5 16
  | .imm14 => bitsFrom 5 14
  | .imm12 => bitsFrom 10 12
  | .imm9 => bitsFrom 12 9
  | .imm7 => bitsFrom 15 7
  | .imm6 => bitsFrom 10 6
  | .imms => bitsFrom 10 6
  | .immr => bitsFrom 16 6
  | .n => bitsFrom 22 1

/-- `w'` is `w` with the field replaced by (the low bits of) `imm`. -/
def Field.Updated (f : Field) (w w' : BitVec 32) (imm : BitVec 64) : Prop :=
  (∀ k j, f.bits[k]? = some j → w'.getLsbD j = imm.getLsbD k) ∧
  (∀ j, j < 32 → j ∉ f.bits → w'.getLsbD j = w.getLsbD j)

/-- `v` is the content of the field, zero-extended. -/
def Field.Value (f : Field) (w : BitVec 32) (v : BitVec 64) : Prop :=
  ∀ k, v.getLsbD k = match f.bits[k]? with
    | some j => w.getLsbD j
    | none => false

end Ulp.A64
