/-
Specification: a hexadecimal dump, position by position.
-/
import Verif.Spec.ProcMaps
namespace Ulp.DumpSpec
open Ulp.ProcMaps (digit)

/-- Where the two digits of the byte `i` are: lines of 80 characters for 16 bytes each, ten
characters of offset, three for each byte, and one more between the halves. -/
def hexPos (i : Nat) : Nat := 80 * (i / 16) + 10 + 3 * (i % 16) + if 8 ≤ i % 16 then 1 else 0

/-- Where the byte `i` is as a character. -/
def charPos (i : Nat) : Nat := 80 * (i / 16) + 62 + i % 16

/-- A character that can be printed. -/
def Printable (b : Byte) : Prop := 32 ≤ b.toNat ∧ b.toNat ≤ 126

/-- `t` is the dump of `data`. -/
structure IsDump (data t : List Byte) : Prop where
  length : t.length = 80 * ((data.length + 15) / 16)
  hex : ∀ i b, data[i]? = some b → t[hexPos i]? = some (digit (b.toNat / 16)) ∧
    t[hexPos i + 1]? = some (digit (b.toNat % 16))
  char : ∀ i b, data[i]? = some b → Printable b → t[charPos i]? = some b
  dot : ∀ i b, data[i]? = some b → ¬ Printable b → t[charPos i]? = some 46
  offset : ∀ k, 16 * k < data.length → ∀ d, d < 8 →
    t[80 * k + d]? = some (digit (16 * k / 16 ^ (7 - d) % 16))
  newline : ∀ k, 16 * k < data.length → t[80 * k + 79]? = some 10

end Ulp.DumpSpec
