/-
What text means, independently of the code that reads it: how a text falls into
pieces at a separator, and which number a numeral denotes.
-/
import Verif.Model.Mem
namespace Ulp.Text

/-- `Pieces c s ps`: the maximal non-empty runs of `s` without the character `c`
are `ps`, in order. -/
inductive Pieces (c : Byte) : List Byte → List (List Byte) → Prop
  | done : Pieces c [] []
  | sep {s ps} : Pieces c s ps → Pieces c (c :: s) ps
  | piece {p s ps} : p ≠ [] → c ∉ p → (s = [] ∨ ∃ t, s = c :: t) → Pieces c s ps →
      Pieces c (p ++ s) (p :: ps)

/-- The character for the digit `d`, in lower or upper case. -/
def digitChar (upper : Bool) (d : Nat) : Byte :=
  BitVec.ofNat 8 (if d < 10 then 48 + d else if upper then 65 + (d - 10) else 97 + (d - 10))

/-- `Numeral b s v`: the text `s` is a numeral in base `b` and denotes `v`. -/
inductive Numeral (b : Nat) : List Byte → Nat → Prop
  | one {d} (u : Bool) : d < b → Numeral b [digitChar u d] d
  | snoc {s v d} (u : Bool) : Numeral b s v → d < b → Numeral b (s ++ [digitChar u d]) (v * b + d)

/-- A single byte written as `0x` and one or two hexadecimal digits. -/
def HexByte (p : List Byte) (b : Byte) : Prop :=
  ∃ ds v, p = 48 :: 120 :: ds ∧ Numeral 16 ds v ∧ ds.length ≤ 2 ∧ b = BitVec.ofNat 8 v

/-- The pieces are, one by one, the given bytes. -/
inductive HexBytes : List (List Byte) → List Byte → Prop
  | nil : HexBytes [] []
  | cons {p b ps bs} : HexByte p b → HexBytes ps bs → HexBytes (p :: ps) (b :: bs)

/-- A text listing bytes between separators. -/
def ByteText (sep : Byte) (s : List Byte) (bs : List Byte) : Prop :=
  ∃ ps, Pieces sep s ps ∧ HexBytes ps bs

/-- Characters that number syntax uses: hexadecimal digits and `x`. -/
def NumberChar (c : Byte) : Prop :=
  c = 120 ∨ ∃ u d, d < 16 ∧ c = digitChar u d

/-- The pieces with one comma between neighbours. -/
def joinComma : List (List Byte) → List Byte
  | [] => []
  | [p] => p
  | p :: q :: ps => p ++ 44 :: joinComma (q :: ps)

end Ulp.Text
