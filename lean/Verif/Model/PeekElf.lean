/-
Reading the ELF headers of a mapping from the memory of the process
(src/task/core.c:31-375, src/elf/ehdr.c:14-56).
-/
import Verif.Model.VmaType
import Verif.Model.Align
namespace Ulp.Peek
open Ulp.Load (lit)
open Ulp.Str (startswith)
open Ulp.VmaType (VmaType isInterpException)
open Ulp.Align

/-- `n` bytes of a structure from offset `off` on, little endian.  The structures are
read whole before, so `bs` always covers the field. -/
def field (bs : List Byte) (off n : Nat) : Nat := leNat ((bs.drop off).take n)

/-- The fields of `GElf_Ehdr` used here (`<elf.h>`). -/
structure Ehdr where
  ident : List Byte
  type : Nat
  machine : Nat
  version : Nat
  phoff : BitVec 64
  phnum : Nat

/-- The 64 bytes of a `GElf_Ehdr` (`<elf.h>`). -/
def parseEhdr (bs : List Byte) : Ehdr :=
  ⟨bs.take 16, field bs 16 2, field bs 18 2, field bs 20 4, BitVec.ofNat 64 (field bs 32 8), field bs 56 2⟩

/-- `GElf_Phdr` (`<elf.h>`), without `p_paddr`. -/
structure Phdr where
  type : Nat
  flags : BitVec 32
  offset : BitVec 64
  vaddr : BitVec 64
  filesz : BitVec 64
  memsz : BitVec 64
  align : BitVec 64
  deriving DecidableEq

/-- The 56 bytes of a `GElf_Phdr` (`<elf.h>`). -/
def parsePhdr (bs : List Byte) : Phdr :=
  ⟨field bs 0 4, BitVec.ofNat 32 (field bs 4 4), BitVec.ofNat 64 (field bs 8 8),
   BitVec.ofNat 64 (field bs 16 8), BitVec.ofNat 64 (field bs 32 8), BitVec.ofNat 64 (field bs 40 8),
   BitVec.ofNat 64 (field bs 48 8)⟩

/-- `n` program headers one after another. -/
def parsePhdrs : Nat → List Byte → List Phdr
  | 0, _ => []
  | n + 1, bs => parsePhdr (bs.take 56) :: parsePhdrs n (bs.drop 56)

def PT_LOAD : Nat := 1
def PT_INTERP : Nat := 3
def PT_GNU_RELRO : Nat := 0x6474e552
def ET_DYN : Nat := 3

/-- `ehdr_magic_ok` (src/elf/ehdr.c:14-24) -/
def ehdrMagicOk (h : Ehdr) : Bool := decide (h.ident.take 4 = [0x7f, 0x45, 0x4c, 0x46])

/-- `ehdr_ok` (src/elf/ehdr.c:26-56) -/
def ehdrOk (h : Ehdr) : Bool :=
  if h.type = 0 then false
  else if h.machine = 0 then false
  else if h.version ≠ 1 then false
  else if h.ident[4]? ≠ some 2 then false
  else if h.ident[5]? ≠ some 1 then false
  else ehdrMagicOk h

/-- What became of `pread` on the memory of the process: the bytes it delivered, or
−1.  At most as many bytes as asked for are delivered. -/
inductive Rd
  | failed
  | got (bs : List Byte)

/-- `struct vma_elf_mem` (src/task/vma.h:45-55); no program headers is `phdrs = []`. -/
structure ElfMem where
  ehdr : Ehdr
  phdrs : List Phdr
  loadAddr : BitVec 64

/-- The pointer `vma->vma_elf`. -/
inductive ElfPtr
  | null
  | live (e : ElfMem)
  | freed

/-- The parts of `struct vm_area_struct` (src/task/vma.h:57-117) used here. -/
structure Area where
  start : BitVec 64
  stop : BitVec 64
  pgoff : BitVec 64
  prot : BitVec 32
  name : List Byte
  type : VmaType
  isElf : Bool
  isShareLib : Bool
  matched : Option Phdr
  elf : ElfPtr
  voffset : BitVec 64

/-- `_relro_dl_mprotect` (src/task/core.c:37-73); `range[0]` is not used. -/
def relroDlMprotect (shift : Nat) (vma : Area) (load : BitVec 64) (relro : Option Phdr) : Bool :=
  match relro with
  | none => false
  | some r =>
    let e := pageDown shift (load + r.vaddr + r.memsz)
    decide (e = vma.start) && decide (vma.stop = vma.stop)

/-- `match_vma_phdr` (src/task/core.c:78-115) -/
def matchVmaPhdr (shift : Nat) (vma : Area) (phdr : Phdr) (load : BitVec 64) (relro : Option Phdr) : Area :=
  let addr := load + phdr.vaddr
  let size := phdr.filesz + pageOffset shift phdr.vaddr
  let addr := pageStart shift addr
  let size := pageAlign shift size
  let ret := decide (addr = vma.start) && decide (addr + size = vma.stop) &&
    decide (phdr.flags &&& (PF_R ||| PF_W ||| PF_X) = prot2flags vma.prot)
  let ret := if !ret && decide (phdr.type = PT_LOAD) && relro.isSome then
    relroDlMprotect shift vma load relro else ret
  if ret then { vma with matched := some phdr } else vma

/-- The first loop over the program headers (src/task/core.c:296-340): the lowest
address so far, the last header of kind `PT_LOAD` (by `FALLTHROUGH`) or
`PT_GNU_RELRO`, and the other mappings of the file. -/
def scanPhdrs (shift : Nat) (prot : BitVec 32) :
    List Phdr → BitVec 64 → Option Phdr → List Area → BitVec 64 × Option Phdr × List Area
  | [], low, relro, sibs => (low, relro, sibs)
  | p :: ps, low, relro, sibs =>
    if p.type = PT_LOAD then
      let low := if low ≤ p.vaddr then low else p.vaddr
      let vaddr := alignDown p.vaddr p.align
      let sibs := sibs.map fun s =>
        if prot = 0 then s
        else if BitVec.shiftLeft s.pgoff shift = vaddr then { s with voffset := p.vaddr } else s
      scanPhdrs shift prot ps low (some p) sibs
    else if p.type = PT_GNU_RELRO then scanPhdrs shift prot ps low (some p) sibs
    else scanPhdrs shift prot ps low relro sibs

/-- The second loop over the program headers (src/task/core.c:352-374) -/
def matchPhdrs (shift : Nat) (load : BitVec 64) (relro : Option Phdr) :
    List Phdr → Area → List Area → Area × List Area
  | [], v, sibs => (v, sibs)
  | p :: ps, v, sibs =>
    if p.type = PT_LOAD ∨ p.type = PT_GNU_RELRO then
      matchPhdrs shift load relro ps (matchVmaPhdr shift v p load relro)
        (sibs.map fun s => matchVmaPhdr shift s p load relro)
    else matchPhdrs shift load relro ps v sibs

/-- The result of `vma_peek_elf_hdrs`: the return value, the mapping and the others
of the same file, and what was stored in the task: `self` if `self_elf` was set to
this mapping, with `is_pie`. -/
structure PeekRes where
  ret : Int
  vma : Area
  sibs : List Area
  self : Option Bool

/-- src/task/core.c:251-288: is the mapping a shared library? -/
def shareLib (v : Area) (e : Ehdr) (phdrs : List Phdr) : Bool :=
  let b :=
    if e.type ≠ ET_DYN ∨ v.type = .self then false
    else !(phdrs.any fun p => decide (p.type = PT_INTERP) && !isInterpException v.name)
  b || decide (v.type = .libc) || decide (v.type = .libUnknown)

/-- `vma_peek_elf_hdrs` from the label `peek_phdrs_done` on (src/task/core.c:249-375) -/
def peekDone (shift : Nat) (e : Ehdr) (phdrs : List Phdr) (v : Area) (sibs : List Area)
    (self : Option Bool) : PeekRes :=
  let v := { v with isShareLib := shareLib v e phdrs }
  let r := scanPhdrs shift v.prot phdrs (BitVec.allOnes 64) none sibs
  let low := r.1
  let relro := r.2.1
  let sibs := r.2.2
  if low = BitVec.allOnes 64 then
    ⟨-1, { v with elf := .null, isElf := false, isShareLib := false }, sibs, self⟩
  else
    let load := v.start - low
    let v := { v with elf := .live ⟨e, phdrs, load⟩ }
    let m := matchPhdrs shift load relro phdrs v sibs
    ⟨0, m.1, m.2, self⟩

/-- `vma_peek_elf_hdrs` (src/task/core.c:118-375).  `ulp` is what `vma_load_ulp`
returns for a patch; `malloc1` and `malloc2` say whether the allocations succeed.
`memcpy_from_task` returns an `int`, which is compared with an unsigned size: −1 is
not "less", so a failed read goes on with the zeroed header, and with program
headers that were never written, whose use is undefined (`none`). -/
def peekElfHdrs (shift : Nat) (rd : BitVec 64 → Nat → Rd) (malloc1 malloc2 : Bool) (ulp : Int)
    (v : Area) (sibs : List Area) : Option PeekRes :=
  match v.type with
  | .vvar | .vvarVclock | .stack | .uprobes | .vsyscall => some ⟨0, v, sibs, none⟩
  | .ulpatch => some ⟨ulp, v, sibs, none⟩
  | _ =>
    let peeked := match v.elf with
      | .null => v.isElf
      | _ => true
    if peeked then some ⟨0, v, sibs, none⟩
    else if startswith v.name (lit "/etc") || startswith v.name (lit "/sys") then
      some ⟨0, v, sibs, none⟩
    else
      let e := match rd v.start 64 with
        | .failed => some (parseEhdr (List.replicate 64 0))
        | .got bs => if bs.length < 64 then none else some (parseEhdr bs)
      match e with
      | none => some ⟨-11, v, sibs, none⟩
      | some e =>
        if !ehdrOk e then some ⟨0, v, sibs, none⟩
        else
          let v := { v with isElf := true }
          let self := if v.type = .self then some (decide (e.type = ET_DYN)) else none
          if !malloc1 then some ⟨-12, v, sibs, self⟩
          else if e.phnum = 0 then some (peekDone shift e [] v sibs self)
          else if !malloc2 then some ⟨-12, { v with elf := .freed }, sibs, self⟩
          else
            match rd (v.start + e.phoff) (e.phnum * 56) with
            | .failed => none
            | .got bs =>
              if bs.length < e.phnum * 56 then some ⟨-11, { v with elf := .freed }, sibs, self⟩
              else some (peekDone shift e (parsePhdrs e.phnum bs) v sibs self)

/-- The parts of `vma_free_elf` (src/task/core.c:411-420) that can go wrong: freeing
through a null or freed pointer is undefined (`none`). -/
def vmaFreeElf (v : Area) : Option Area :=
  if !v.isElf || decide (v.type = .ulpatch) then some v
  else
    match v.elf with
    | .live _ => some { v with elf := .freed }
    | _ => none

end Ulp.Peek
