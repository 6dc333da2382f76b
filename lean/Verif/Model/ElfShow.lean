/-
Showing the headers and the symbols of ELF files (src/elf/ehdr.c:58-188, src/elf/phdr.c:15-84,
src/elf/symbol.c:17-101, 512-526, src/task/vma.c:443-463).  The text written to the stream is a
list of bytes.  The numbers of the names are those of `<elf.h>`.
-/
import Verif.Model.Listing
namespace Ulp.ElfShow
open Ulp.Load (lit hex2)
open Ulp.Listing (leftCol rightCol lx lx16)
open Ulp.VmaType (dec)

/-- `GElf_Ehdr` (`<elf.h>`). -/
structure Ehdr where
  ident : Fin 16 → Byte
  type : BitVec 16
  machine : BitVec 16
  version : BitVec 32
  entry : BitVec 64
  phoff : BitVec 64
  shoff : BitVec 64
  flags : BitVec 32
  ehsize : BitVec 16
  phentsize : BitVec 16
  phnum : BitVec 16
  shentsize : BitVec 16
  shnum : BitVec 16
  shstrndx : BitVec 16

/-- `GElf_Phdr` (`<elf.h>`). -/
structure Phdr where
  type : BitVec 32
  flags : BitVec 32
  offset : BitVec 64
  vaddr : BitVec 64
  paddr : BitVec 64
  filesz : BitVec 64
  memsz : BitVec 64
  align : BitVec 64

/-- `GElf_Sym` (`<elf.h>`), without `st_name`. -/
structure Sym where
  info : BitVec 8
  other : BitVec 8
  shndx : BitVec 16
  value : BitVec 64
  size : BitVec 64

/-! ### printf (libc) -/

/-- `%ld` -/
def ld (x : BitVec 64) : List Byte :=
  if x.toInt < 0 then lit "-" ++ dec x.toInt.natAbs else dec x.toNat

/-- `%#018lx` -/
def altHex18 (n : Nat) : List Byte :=
  if n = 0 then List.replicate 18 48
  else lit "0x" ++ List.replicate (16 - (lx n).length) 48 ++ lx n

/-- `%08lx` -/
def lx8 (n : Nat) : List Byte := List.replicate (8 - (lx n).length) 48 ++ lx n

/-! ### The header of a file -/

/-- `ehdr_magic_ok` (src/elf/ehdr.c:14-24). -/
def ehdrMagicOk (h : Ehdr) : Bool :=
  !(h.ident 0 ≠ 0x7f || h.ident 1 ≠ 69 || h.ident 2 ≠ 76 || h.ident 3 ≠ 70)

/-- `ei_class_string` (src/elf/ehdr.c:58-66). -/
def eiClass (h : Ehdr) : String :=
  let c := h.ident 4
  if c = 0 then "NONE" else if c = 1 then "ELF32" else if c = 2 then "ELF64" else "Unknown"

/-- `ei_data_string` (src/elf/ehdr.c:68-76). -/
def eiData (h : Ehdr) : String :=
  let c := h.ident 5
  if c = 0 then "Invalid data encoding"
  else if c = 1 then "2's complement, little endian"
  else if c = 2 then "2's complement, big endian"
  else "Unknown"

/-- `ei_osabi_string` (src/elf/ehdr.c:78-97). -/
def eiOsabi (h : Ehdr) : String :=
  let c := h.ident 7
  if c = 0 then "UNIX - System V"
  else if c = 1 then "HP-UX"
  else if c = 2 then "NetBSD"
  else if c = 3 then "Object uses GNU ELF extensions"
  else if c = 6 then "Sun Solaris"
  else if c = 7 then "IBM AIX"
  else if c = 8 then "SGI Irix"
  else if c = 9 then "FreeBSD"
  else if c = 10 then "Compaq TRU64 UNIX"
  else if c = 11 then "Novell Modesto"
  else if c = 12 then "OpenBSD"
  else if c = 64 then "ARM EABI"
  else if c = 97 then "ARM"
  else if c = 255 then "Standalone (embedded) application"
  else "Unknown"

/-- `e_type_string` (src/elf/ehdr.c:99-114). -/
def eType (h : Ehdr) : String :=
  let t := h.type
  if t = 0 then "No file type"
  else if t = 1 then "Relocatable file"
  else if t = 2 then "Executable file"
  else if t = 3 then "Shared object file"
  else if t = 4 then "Core file"
  else if t = 5 then "Number of defined types"
  else if t = 0xfe00 then "OS-specific range start"
  else if t = 0xfeff then "OS-specific range end"
  else if t = 0xff00 then "Processor-specific range start"
  else if t = 0xffff then "Processor-specific range end"
  else "Unknown"

/-- `e_machine_string` (src/elf/ehdr.c:116-127). -/
def eMachine (h : Ehdr) : String :=
  let m := h.machine
  if m = 0 then "No machine type"
  else if m = 40 then "arm"
  else if m = 183 then "aarch64"
  else if m = 62 then "x86_64"
  else "Unknown"

/-- `print_ehdr` (src/elf/ehdr.c:129-187), for a pointer that is not null. -/
def printEhdr (h : Ehdr) : Int × List Byte :=
  if ehdrMagicOk h = false then (-22, [])
  else (0,
    lit "ELF Header:\n Magic:  " ++ (List.ofFn h.ident).flatMap (fun b => lit " " ++ hex2 b) ++
    lit "\n" ++
    lit " Class:                             " ++ lit (eiClass h) ++ lit "\n" ++
    lit " Data:                              " ++ lit (eiData h) ++ lit "\n" ++
    lit " Version:                           1 (current)\n" ++
    lit " OS/ABI:                            " ++ lit (eiOsabi h) ++ lit "\n" ++
    lit " ABI Version:                       " ++ dec (h.ident 8).toNat ++ lit "\n" ++
    lit " Type:                              " ++ lit (eType h) ++ lit "\n" ++
    lit " Machine:                           " ++ lit (eMachine h) ++ lit "\n" ++
    lit " Version:                           0x" ++ lx h.version.toNat ++ lit "\n" ++
    lit " Entry point address:               0x" ++ lx h.entry.toNat ++ lit "\n" ++
    lit " Start of program headers:          " ++ ld h.phoff ++ lit " (bytes into file)\n" ++
    lit " Start of section headers:          " ++ ld h.shoff ++ lit " (bytes into file)\n" ++
    lit " Flags:                             0x" ++ lx h.flags.toNat ++ lit "\n" ++
    lit " Size of this header:               " ++ dec h.ehsize.toNat ++ lit " (bytes)\n" ++
    lit " Size of program headers:           " ++ dec h.phentsize.toNat ++ lit " (bytes)\n" ++
    lit " Number of program headers:         " ++ dec h.phnum.toNat ++ lit "\n" ++
    lit " Size of section headers:           " ++ dec h.shentsize.toNat ++ lit " (bytes)\n" ++
    lit " Number of section headers:         " ++ dec h.shnum.toNat ++ lit "\n" ++
    lit " Section header string table index: " ++ dec h.shstrndx.toNat ++ lit "\n")

/-! ### Program headers -/

/-- `phdr_type_str` (src/elf/phdr.c:15-47), with the names that are there if `PT_GNU_PROPERTY` and
`PT_GNU_SFRAME` are defined. -/
def phdrType (p : Phdr) : String :=
  let t := p.type
  if t = 0 then "NULL"
  else if t = 1 then "LOAD"
  else if t = 2 then "DYNAMIC"
  else if t = 3 then "INTERP"
  else if t = 4 then "NOTE"
  else if t = 5 then "SHLIB"
  else if t = 6 then "PHDR"
  else if t = 7 then "TLS"
  else if t = 8 then "NUM"
  else if t = 0x60000000 then "LOOS"
  else if t = 0x6474e550 then "GNU_EH_FRAME"
  else if t = 0x6474e551 then "GNU_STACK"
  else if t = 0x6474e552 then "GNU_RELRO"
  else if t = 0x6474e553 then "GNU_PROPERTY"
  else if t = 0x6474e554 then "GNU_SFRAME"
  else if t = 0x6ffffffa then "LOSUNW"
  else if t = 0x6ffffffb then "SUNWSTACK"
  else if t = 0x6fffffff then "HIOS"
  else if t = 0x70000000 then "LOPROC"
  else if t = 0x7fffffff then "HIPROC"
  else "UNKNOWN"

/-- `phdr_flags_str_unsafe` (src/elf/phdr.c:49-57). -/
def phdrFlags (p : Phdr) : List Byte :=
  [if p.flags &&& 4 ≠ 0 then 82 else 32, if p.flags &&& 2 ≠ 0 then 87 else 32,
   if p.flags &&& 1 ≠ 0 then 88 else 32]

/-- `print_phdr` (src/elf/phdr.c:59-84); `pre` is the prefix or the empty string. -/
def printPhdr (pre : List Byte) (p : Phdr) (first : Bool) : List Byte :=
  (if first then
    pre ++ lit "  " ++ leftCol 16 (lit "Type") ++ lit " " ++ leftCol 18 (lit "Offset") ++ lit " " ++
      leftCol 18 (lit "VirtAddr") ++ lit " " ++ leftCol 16 (lit "PhysAddr") ++ lit "\n" ++
    pre ++ lit "  " ++ leftCol 16 (lit "") ++ lit " " ++ leftCol 18 (lit "FileSize") ++ lit " " ++
      leftCol 18 (lit "MemSize") ++ lit " " ++ leftCol 8 (lit "Flags") ++ lit " " ++
      leftCol 8 (lit "Align") ++ lit "\n"
   else []) ++
  pre ++ lit "  " ++ leftCol 16 (lit (phdrType p)) ++ lit " " ++ altHex18 p.offset.toNat ++ lit " " ++
    altHex18 p.vaddr.toNat ++ lit " " ++ lx16 p.paddr.toNat ++ lit "\n" ++
  pre ++ lit "  " ++ leftCol 16 (lit "") ++ lit " " ++ altHex18 p.filesz.toNat ++ lit " " ++
    altHex18 p.memsz.toNat ++ lit " " ++ leftCol 8 (phdrFlags p) ++ lit " " ++ lx8 p.align.toNat ++
    lit "\n"

/-- The loop over the program headers (src/task/vma.c:450-456). -/
def loadLoop : Bool → List Phdr → List Byte
  | _, [] => []
  | first, p :: l =>
    if p.type ≠ 1 then loadLoop first l else printPhdr [] p first ++ loadLoop false l

/-- What was read of the file of a mapping: the address it is loaded at, its header and its
`e_phnum` program headers (`struct vma_elf_mem`, src/task/vma.h). -/
structure VmaElf where
  loadAddr : BitVec 64
  ehdr : Ehdr
  phdrs : List Phdr

/-- What `print_vma` writes if `detail` is set (src/task/vma.c:443-463): `tty` says whether the
stream is `stdout` or `stderr`; `matched` is the program header of the mapping, if
`is_matched_phdr` is set. -/
def vmaDetail (tty : Bool) (elf : Option VmaElf) (matched : Option Phdr) : List Byte :=
  (if tty then 27 :: lit "[2m" else []) ++
  (match elf with
   | some e => rightCol 10 [] ++ lit "  load_addr = 0x" ++ lx e.loadAddr.toNat ++ lit "\n" ++
       (printEhdr e.ehdr).2 ++ loadLoop true e.phdrs
   | none => []) ++
  (match matched with
   | some p => printPhdr [] p true
   | none => []) ++
  (if tty then 27 :: lit "[0m" else [])

/-! ### Symbols -/

/-- `st_bind_string` (src/elf/symbol.c:17-33), with `STB_GNU_UNIQUE = STB_LOOS`. -/
def stBind (s : Sym) : String :=
  let b := s.info >>> 4
  if b = 0 then "LOCAL" else if b = 1 then "GLOBAL" else if b = 2 then "WEAK" else if b = 3 then "NUM"
  else if b = 10 then "LOOS" else if b = 12 then "HIOS" else if b = 13 then "LOPROC"
  else if b = 15 then "HIPROC" else "UNKNOWN"

/-- `st_type_string` with `i_st_type_string` (src/elf/symbol.c:35-60), with
`STT_GNU_IFUNC = STT_LOOS`. -/
def stType (s : Sym) : String :=
  let t := s.info &&& 0xf
  if t = 0 then "NOTYPE" else if t = 1 then "OBJECT" else if t = 2 then "FUNC"
  else if t = 3 then "SECTION" else if t = 4 then "FILE" else if t = 5 then "COMMON"
  else if t = 6 then "TLS" else if t = 7 then "NUM" else if t = 10 then "LOOS"
  else if t = 12 then "HIOS" else if t = 13 then "LOPROC" else if t = 15 then "HIPROC"
  else "UNKNOWN"

/-- `st_visibility_string` (src/elf/symbol.c:62-71): it is `st_info` that is looked at. -/
def stVisibility (s : Sym) : String :=
  let v := s.info &&& 3
  if v = 0 then "DEFAULT" else if v = 1 then "INTERNAL" else if v = 2 then "HIDDEN"
  else if v = 3 then "PROTECTED" else "UNKNOWN"

/-- `fprint_sym` (src/elf/symbol.c:78-101); `pre` is the prefix or the empty string. -/
def fprintSym (pre : List Byte) (s : Sym) (name : List Byte) (version : Option (List Byte))
    (first : Bool) : List Byte :=
  (if first then
    pre ++ lit " " ++ leftCol 18 (lit "Value") ++ lit " " ++ leftCol 7 (lit "Size") ++ lit " " ++
      leftCol 8 (lit "Type") ++ lit " " ++ leftCol 8 (lit "Bind") ++ lit " " ++
      leftCol 12 (lit "Vis") ++ lit " " ++ leftCol 4 (lit "Ndx") ++ lit " " ++
      leftCol 8 (lit "Name") ++ lit "\n"
   else []) ++
  pre ++ lit " " ++ altHex18 s.value.toNat ++ lit " " ++ leftCol 7 (ld s.size) ++ lit " " ++
    leftCol 8 (lit (stType s)) ++ lit " " ++ leftCol 8 (lit (stBind s)) ++ lit " " ++
    leftCol 12 (lit (stVisibility s)) ++ lit " " ++ leftCol 4 (dec s.shndx.toNat) ++ lit " " ++
    name ++ (match version with | some v => lit "@" ++ v | none => []) ++ lit "\n"

end Ulp.ElfShow
