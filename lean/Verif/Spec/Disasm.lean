/-
Specification: a listing of instructions.
-/
import Verif.Spec.Listing
import Verif.Spec.PatchFile
namespace Ulp.DisasmSpec
open Ulp.MapKind (text)
open Ulp.ProcMaps (hex digit)
open Ulp.ListingSpec (left)

/-- An instruction: its bytes, and how it is written in assembly language. -/
structure Piece where
  bytes : List Byte
  mnemonic : List Byte
  operands : List Byte

/-- A byte in two digits. -/
def byteText (b : Byte) : List Byte := [digit (b.toNat / 16), digit (b.toNat % 16)]

/-- The bytes that are shown. -/
def shown (l : List Piece) : List Byte := l.flatMap Piece.bytes

/-- The lines of a listing: each has the address of an instruction, its bytes in a column for
`w` bytes, and the instruction; the last has the address behind. -/
def rows (before : List Byte) (w : Nat) : BitVec 64 → List Piece → List Byte
  | a, [] => before ++ text "0x" ++ hex a.toNat ++ text ":" ++ [10]
  | a, p :: l =>
    before ++ text "0x" ++ hex a.toNat ++ text ": " ++
      left (3 * w) (p.bytes.flatMap fun b => byteText b ++ text " ") ++ text " " ++ [9] ++
      p.mnemonic ++ [9] ++ p.operands ++ [10] ++
    rows before w (a + BitVec.ofNat 64 p.bytes.length) l

/-- The width of the column is that of the longest instruction. -/
def Widest (w : Nat) (l : List Piece) : Prop :=
  (∀ p ∈ l, p.bytes.length ≤ w) ∧ ∃ p ∈ l, p.bytes.length = w

end Ulp.DisasmSpec
