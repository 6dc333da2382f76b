/-
Loading the symbols of a mapping (src/task/symbol.c:290-343).
-/
import Verif.Model.Sym
namespace Ulp.Sym

/-- A symbol that `bfd_next_text_sym` etc. yield, with its name and address in the
file.  `ptr` is what `malloc` returns for the structure made for it
(src/task/symbol.c:79; a failing `malloc` is not modelled). -/
structure FileSym where
  ptr : Nat
  name : List Byte
  addr : BitVec 64

/-- The parts of `struct vm_area_struct` used here, with the symbols of its file in
the order the iterators give them. -/
structure Mapping where
  isElf : Bool
  opened : Bool
  isUlpatch : Bool
  loadAddr : BitVec 64
  text : List FileSym
  data : List FileSym
  plt : List FileSym

/-- One of the three loops of `task_load_vma_elf_syms`
(src/task/symbol.c:313-321, 323-331, 333-341) -/
def linkSyms (load : BitVec 64) : Syms → List FileSym → Option Syms
  | s, [] => some s
  | s, f :: l => (linkTaskSym (allocTaskSym s f.ptr f.name (f.addr + load)) f.ptr).bind fun s => linkSyms load s l

/-- `task_load_vma_elf_syms` (src/task/symbol.c:290-343); the result is the second
part, −22 is `-EINVAL`. -/
def taskLoadVmaElfSyms (s : Syms) (v : Mapping) : Option (Syms × Int) :=
  if !v.isElf || !v.opened then some (s, -22)
  else if v.isUlpatch then some (s, -22)
  else
    (linkSyms v.loadAddr s v.text).bind fun s => (linkSyms v.loadAddr s v.data).bind fun s =>
      (linkSyms v.loadAddr s v.plt).bind fun s => some (s, 0)

/-- The mappings one after another, whatever each returns, as
`open_task` does (src/task/core.c:526-531; it skips the mappings that are no ELF,
for which the function does nothing). -/
def loadAll : Syms → List Mapping → Option Syms
  | s, [] => some s
  | s, v :: vs => (taskLoadVmaElfSyms s v).bind fun r => loadAll r.1 vs

end Ulp.Sym
