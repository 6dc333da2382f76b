/-
From the symbols of the files of a process to the symbols of the process
(src/task/symbol.c:290-343 with src/elf/symbol-bfd.c).
-/
import Verif.Model.BfdSym
import Verif.Model.SymLoad
namespace Ulp.Bfd
open Sym (Mapping FileSym)

/-- The parts of `struct vm_area_struct` used by `task_load_vma_elf_syms`
(src/task/symbol.c:290-343), with `bfd_elf_file` as `bfd_elf_open` left it. -/
structure VmaFile where
  isElf : Bool
  isUlpatch : Bool
  loadAddr : BitVec 64
  /-- NULL if it was not opened -/
  file : Option BFile

/-- What one of the three loops of `task_load_vma_elf_syms` gets from the iterators
(src/task/symbol.c:312-321, 323-331, 333-341), with `bfd_sym_name`
(src/elf/symbol-bfd.c:123-126).  `tp p` is what `malloc` returns for the symbol made
from `p`. -/
def fileSyms (tp : Nat → Nat) (t : Tab) : Option (List FileSym) :=
  (iter t 0 []).bind fun l => some (l.map fun p => ⟨tp p, t.name p, bfdSymAddr t p⟩)

/-- The mapping as `Sym.taskLoadVmaElfSyms` takes it. -/
def VmaFile.mapping (tp : Kind → Nat → Nat) (v : VmaFile) : Option Mapping :=
  match v.file with
  | none => some ⟨v.isElf, false, v.isUlpatch, v.loadAddr, [], [], []⟩
  | some f =>
    (fileSyms (tp .text) (f .text)).bind fun a => (fileSyms (tp .data) (f .data)).bind fun b =>
      (fileSyms (tp .plt) (f .plt)).bind fun c => some ⟨v.isElf, true, v.isUlpatch, v.loadAddr, a, b, c⟩

/-- All the mappings of a process, from number `i` on (`Sym.loadAll` registers their
symbols, src/task/core.c:526-531). -/
def mappings (tp : Nat → Kind → Nat → Nat) (i : Nat) : List VmaFile → Option (List Mapping)
  | [] => some []
  | v :: vs => (v.mapping (tp i)).bind fun m => (mappings tp (i + 1) vs).bind fun ms => some (m :: ms)

end Ulp.Bfd
