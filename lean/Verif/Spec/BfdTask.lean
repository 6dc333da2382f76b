/-
Where a name should be found in a process: in the mapped files, in their order.
-/
import Verif.Spec.BfdSym
import Verif.Model.BfdTask
namespace Ulp.BfdSpec
open Bfd

/-- A mapping of a process with the symbol tables of its file (`none`: libbfd did not
open it). -/
structure Src where
  isElf : Bool
  isUlpatch : Bool
  load : BitVec 64
  tabs : Option (Slurp × Slurp × List ASym)
  mal : Nat → Kind → Nat

/-- The symbols of the file. -/
noncomputable def Src.tbl (v : Src) : List ASym :=
  match v.tabs with
  | none => []
  | some (symtab, dynsym, synth) => table symtab.list dynsym.list synth

/-- What the file was opened as. -/
def Src.open (v : Src) : Option VmaFile :=
  match v.tabs with
  | none => some ⟨v.isElf, v.isUlpatch, v.load, none⟩
  | some (symtab, dynsym, synth) =>
    (bfdElfOpen v.mal true (.object symtab dynsym synth)).bind fun f => some ⟨v.isElf, v.isUlpatch, v.load, f⟩

def openAll : List Src → Option (List VmaFile)
  | [] => some []
  | v :: vs => v.open.bind fun f => (openAll vs).bind fun fs => some (f :: fs)

/-- Where symbols are looked for, in order: the code, data and PLT entries of each
file that is ELF, opened and no patch. -/
def places (vs : List Src) : List (Src × Kind) :=
  vs.flatMap fun v =>
    if v.isElf = true ∧ v.tabs.isSome = true ∧ v.isUlpatch = false then [(v, .text), (v, .data), (v, .plt)] else []

/-- The file has a symbol of this kind and name. -/
def Has (n : List Byte) (p : Src × Kind) : Prop := ∃ s ∈ p.1.tbl, Named p.2 n s

end Ulp.BfdSpec
