/-
Specification: relocation fields and values of the x86-64 psABI (table
"Relocation Types"), by relocation number.  Independent of the ulpatch sources.
-/
import Verif.Model.Mem
namespace Ulp.Psabi

/-- Width in bytes of the relocated field and the calculation, for symbol value
`S`, addend `A` and place `P` (the address of the field in the process that
will run the code), for the types the patch loader promises to support. -/
def x86 (type : Nat) (S A P : BitVec 64) : Option (Nat × BitVec 64) :=
  match type with
  | 1 => some (8, S + A)        -- R_X86_64_64
  | 2 => some (4, S + A - P)    -- R_X86_64_PC32
  | 4 => some (4, S + A - P)    -- R_X86_64_PLT32, function bound directly
  | 10 => some (4, S + A)       -- R_X86_64_32
  | 11 => some (4, S + A)       -- R_X86_64_32S
  | 24 => some (8, S + A - P)   -- R_X86_64_PC64
  | _ => none

/-- Width of the field of every type that has a `word32`/`word64` field and that
the loader accepts, including the GOT-relative ones. -/
def x86Width (type : Nat) : Nat :=
  match type with
  | 1 => 8 | 24 => 8
  | 2 => 4 | 4 => 4 | 10 => 4 | 11 => 4
  | 9 => 4 | 22 => 4 | 41 => 4 | 42 => 4   -- GOTPCREL, GOTTPOFF, GOTPCRELX, REX_GOTPCRELX
  | _ => 0

/-- The value fits its field: as an unsigned 32-bit number for `R_X86_64_32`, as
a signed 32-bit number for `32S`, `PC32`, `PLT32`; 64-bit fields always fit. -/
def x86Fits (type : Nat) (v : BitVec 64) : Prop :=
  match type with
  | 10 => v.toNat < 2^32
  | 2 | 4 | 11 => -2^31 ≤ v.toInt ∧ v.toInt < 2^31
  | _ => True

/-- The field of `n` bytes at `a` holds `v` (its low bytes, little endian). -/
def Holds (m : Mem) (a : Addr) (n : Nat) (v : BitVec 64) : Prop :=
  ∀ i, i < n → m (a + BitVec.ofNat 64 i) = (v >>> (8 * i)).setWidth 8

end Ulp.Psabi
