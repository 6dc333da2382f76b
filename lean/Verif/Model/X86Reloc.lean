/-
Relocating a patch image on x86_64 (src/arch/x86_64/patch.c).
-/
import Verif.Model.Rela
namespace Ulp.X86Reloc

/-- The relocation types with a `case` in src/arch/x86_64/patch.c:108-196. -/
inductive RType where
  | none | r64 | r32 | r32s | gottpoff | gotpcrel | rexGotpcrelx | gotpcrelx
  | pc32 | plt32 | pc64 | tpoff64 | tpoff32
  | other (n : Nat)
  deriving DecidableEq, Repr

/-- Numbers of the `R_X86_64_*` constants (`elf.h`). -/
def RType.ofNat (n : Nat) : RType :=
  if n = 0 then .none
  else if n = 1 then .r64
  else if n = 2 then .pc32
  else if n = 4 then .plt32
  else if n = 9 then .gotpcrel
  else if n = 10 then .r32
  else if n = 11 then .r32s
  else if n = 18 then .tpoff64
  else if n = 22 then .gottpoff
  else if n = 23 then .tpoff32
  else if n = 24 then .pc64
  else if n = 41 then .gotpcrelx
  else if n = 42 then .rexGotpcrelx
  else .other n

def STT_TLS : Nat := 6

/-- `is_undef_symbol` (src/elf/symbol.c:127-130): `SHN_UNDEF` or
`>= SHN_LORESERVE`. -/
def isUndef (s : Sym) : Bool := decide (s.shndx = 0) || decide (0xff00 ≤ s.shndx)

/-- `loc` (src/arch/x86_64/patch.c:59, 84-85): where the field is in the host. -/
def loc (c : RelaCtx) (r : Rela) : Addr := c.secAddr + (c.hdr - c.targetHdr) + r.offset

/-- Sign-extended 4-byte load, `*(int32_t *)loc`. -/
def loadS32 (m : Mem) (a : Addr) : BitVec 64 := ((m.load a 4).setWidth 32).signExtend 64

/-- `PC32`, `PLT32` and the cases that fall through to them
(src/arch/x86_64/patch.c:160-173). -/
def applyPc32 (c : RelaCtx) (m : Mem) (r : Rela) (val : BitVec 64) : Mem × Int :=
  if m.load (loc c r) 4 ≠ 0 then (m, RELOC_ENOEXEC)
  else (m.write (loc c r) (leBytes 4 (val - (loc c r - (c.hdr - c.targetHdr)))), 0)

/-- One iteration of the loop (src/arch/x86_64/patch.c:77-197).  `first` is
`rel->r_addend`, the addend of the section's first entry (line 156).  On a
refusal the memory written so far is kept. -/
def applyOne (c : RelaCtx) (first : BitVec 64) (m : Mem) (r : Rela) (s : Sym) : Mem × Int :=
  let val := s.value + r.addend
  match RType.ofNat r.type with
  | .none => (m, 0)
  | .r64 =>
    if m.load (loc c r) 8 ≠ 0 then (m, RELOC_ENOEXEC)
    else (m.write (loc c r) (leBytes 8 val), 0)
  | .r32 =>
    if m.load (loc c r) 4 ≠ 0 then (m, RELOC_ENOEXEC)
    else
      let m' := m.write (loc c r) (leBytes 4 val)
      if val ≠ m'.load (loc c r) 4 then (m', RELOC_ENOEXEC) else (m', 0)
  | .r32s =>
    if m.load (loc c r) 4 ≠ 0 then (m, RELOC_ENOEXEC)
    else
      let m' := m.write (loc c r) (leBytes 4 val)
      if val ≠ loadS32 m' (loc c r) then (m', RELOC_ENOEXEC) else (m', 0)
  | .gottpoff | .gotpcrel | .rexGotpcrelx | .gotpcrelx =>
    if isUndef s then applyPc32 c m r val
    else if s.type = STT_TLS then applyPc32 c m r (first + c.targetHdr - 4)
    else applyPc32 c m r val
  | .pc32 | .plt32 => applyPc32 c m r val
  | .pc64 =>
    if m.load (loc c r) 8 ≠ 0 then (m, RELOC_ENOEXEC)
    else (m.write (loc c r) (leBytes 8 (val - (loc c r - (c.hdr - c.targetHdr)))), 0)
  | .tpoff64 | .tpoff32 => (m, 0)
  | .other _ => (m, RELOC_ENOEXEC)

/-- The loop.  `none`: the symbol index is outside the symbol table and the C
code reads past it. -/
def applyAll (c : RelaCtx) (first : BitVec 64) : List Rela → Mem → Option (Mem × Int)
  | [], m => some (m, 0)
  | r :: rs, m =>
    match c.syms[r.sym]? with
    | none => none
    | some s =>
      if (applyOne c first m r s).2 ≠ 0 then some (applyOne c first m r s)
      else applyAll c first rs (applyOne c first m r s).1

/-- `arch_apply_relocate_add` (src/arch/x86_64/patch.c:39-212): new host memory
and return code. -/
def relocate (c : RelaCtx) (m : Mem) : Option (Mem × Int) :=
  match c.rels with
  | [] => some (m, 0)
  | r :: rs => applyAll c r.addend (r :: rs) m

end Ulp.X86Reloc
