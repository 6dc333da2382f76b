/-
Relocation entries and symbols as both architectures' `arch_apply_relocate_add`
see them.
-/
import Verif.Model.Mem
namespace Ulp

/-- `Elf64_Rela`, with `r_info` split by `ELF64_R_SYM`/`ELF64_R_TYPE`
(src/arch/x86_64/patch.c:91-101, src/arch/aarch64/patch.c:206-226). -/
structure Rela where
  offset : BitVec 64
  sym : Nat
  type : Nat
  addend : BitVec 64
  deriving DecidableEq, Repr

/-- The parts of `Elf64_Sym` that relocation looks at: `st_value`, the type
nibble of `st_info` and `st_shndx`. -/
structure Sym where
  value : BitVec 64
  type : Nat
  shndx : Nat
  deriving DecidableEq, Repr

/-- What `arch_apply_relocate_add` gets for one relocation section: where the
image is in the host and will be in the target, `sh_addr` (target address) of
the section being relocated, the relocation entries and the symbol table.
Simplification: the tables are read once, so relocations that overwrite the
relocation section or the symbol table itself are outside the model. -/
structure RelaCtx where
  hdr : Addr
  targetHdr : Addr
  secAddr : Addr
  rels : List Rela
  syms : List Sym

/-- Return code of a refused relocation section. -/
def RELOC_ENOEXEC : Int := -8

end Ulp
