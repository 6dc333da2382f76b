/-
Which symbols of an ELF file a user can look up, and under which name.
-/
import Verif.Model.BfdSym
namespace Ulp.BfdSpec
open Bfd
open Load (lit)

/-- A symbol of a symbol table that counts: it has an address and a name, is
defined here, and is neither a section nor for the debugger (but those of `.plt…`
and `.got…` count). -/
def Counts (s : ASym) : Prop :=
  s.value ≠ 0 ∧ s.und = false ∧ s.com = false ∧ ∃ n, s.name = some n ∧ n ≠ [] ∧
    ((s.debugging = false ∧ s.sectionSym = false) ∨ (∃ r, n = lit ".plt" ++ r) ∨ ∃ r, n = lit ".got" ++ r)

open Classical in
/-- The symbols of a file, in order: those that count of its symbol table, or of
its dynamic symbol table if it has no other, and then the ones libbfd makes up for
the entries of the PLT. -/
noncomputable def table (symtab dynsym synth : List ASym) : List ASym :=
  (if symtab ≠ [] then symtab else dynsym).filter (fun s => decide (Counts s)) ++ synth

/-- The name up to the first `@`. -/
def base (n : List Byte) : List Byte := n.takeWhile (· ≠ 0x40#8)

/-- What makes a symbol one of code, of the PLT, of data. -/
def OfKind (s : ASym) : Kind → Prop
  | .text => s.code = true ∨ s.sect = lit ".text"
  | .plt => ∃ n a b, s.name = some n ∧ n = a ++ lit "@plt" ++ b
  | .data => s.data = true ∨ s.sect ∈ [lit ".data", lit ".data.rel.ro", lit ".bss"]

/-- `s` is of the kind `k` and its name up to an `@` is `n`. -/
def Named (k : Kind) (n : List Byte) (s : ASym) : Prop := OfKind s k ∧ s.name.map base = some n

/-- `s` is the first of `l` with the property. -/
def First {α : Type} (P : α → Prop) (l : List α) (s : α) : Prop :=
  ∃ a b, l = a ++ s :: b ∧ P s ∧ ∀ x ∈ a, ¬ P x

/-- The symbol has a name, and what is before an `@` fits a buffer of 256 bytes. -/
def Short (s : ASym) : Prop := ∃ n, s.name = some n ∧ (0x40#8 ∈ n → (base n).length < 256)

/-- A table libbfd did not fail to read. -/
def Readable (t : Slurp) : Prop := t ≠ .bad

end Ulp.BfdSpec
