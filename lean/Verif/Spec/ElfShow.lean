/-
Specification: how the headers and the symbols of an ELF file are shown.  The names are those of
the ELF specification (gABI) and its GNU supplements.
-/
import Verif.Model.ElfShow
import Verif.Spec.Listing
namespace Ulp.ElfShowSpec
open Ulp.MapKind (text)
open Ulp.ProcMaps (hex decimal digit zeros)
open Ulp.ListingSpec (left spaces)
open Ulp.ElfShow (Ehdr Phdr Sym)

/-- The name of a number in a table. -/
def nameIn (d : String) : List (Nat × String) → Nat → String
  | [], _ => d
  | e :: l, n => if n = e.1 then e.2 else nameIn d l n

def classes : List (Nat × String) := [(0, "NONE"), (1, "ELF32"), (2, "ELF64")]

def encodings : List (Nat × String) :=
  [(0, "Invalid data encoding"), (1, "2's complement, little endian"),
   (2, "2's complement, big endian")]

def systems : List (Nat × String) :=
  [(0, "UNIX - System V"), (1, "HP-UX"), (2, "NetBSD"), (3, "Object uses GNU ELF extensions"),
   (6, "Sun Solaris"), (7, "IBM AIX"), (8, "SGI Irix"), (9, "FreeBSD"), (10, "Compaq TRU64 UNIX"),
   (11, "Novell Modesto"), (12, "OpenBSD"), (64, "ARM EABI"), (97, "ARM"),
   (255, "Standalone (embedded) application")]

def fileTypes : List (Nat × String) :=
  [(0, "No file type"), (1, "Relocatable file"), (2, "Executable file"), (3, "Shared object file"),
   (4, "Core file"), (5, "Number of defined types"), (0xfe00, "OS-specific range start"),
   (0xfeff, "OS-specific range end"), (0xff00, "Processor-specific range start"),
   (0xffff, "Processor-specific range end")]

def machines : List (Nat × String) :=
  [(0, "No machine type"), (40, "arm"), (183, "aarch64"), (62, "x86_64")]

def segments : List (Nat × String) :=
  [(0, "NULL"), (1, "LOAD"), (2, "DYNAMIC"), (3, "INTERP"), (4, "NOTE"), (5, "SHLIB"), (6, "PHDR"),
   (7, "TLS"), (8, "NUM"), (0x60000000, "LOOS"), (0x6474e550, "GNU_EH_FRAME"),
   (0x6474e551, "GNU_STACK"), (0x6474e552, "GNU_RELRO"), (0x6474e553, "GNU_PROPERTY"),
   (0x6474e554, "GNU_SFRAME"), (0x6ffffffa, "LOSUNW"), (0x6ffffffb, "SUNWSTACK"),
   (0x6fffffff, "HIOS"), (0x70000000, "LOPROC"), (0x7fffffff, "HIPROC")]

def bindings : List (Nat × String) :=
  [(0, "LOCAL"), (1, "GLOBAL"), (2, "WEAK"), (3, "NUM"), (10, "LOOS"), (12, "HIOS"), (13, "LOPROC"),
   (15, "HIPROC")]

def symbolTypes : List (Nat × String) :=
  [(0, "NOTYPE"), (1, "OBJECT"), (2, "FUNC"), (3, "SECTION"), (4, "FILE"), (5, "COMMON"), (6, "TLS"),
   (7, "NUM"), (10, "LOOS"), (12, "HIOS"), (13, "LOPROC"), (15, "HIPROC")]

def visibilities : List (Nat × String) :=
  [(0, "DEFAULT"), (1, "INTERNAL"), (2, "HIDDEN"), (3, "PROTECTED")]

/-- Lines of text. -/
def unlines (l : List (List Byte)) : List Byte := l.flatMap (· ++ [10])

/-- A number with a sign. -/
def signed (x : BitVec 64) : List Byte :=
  if x.toInt < 0 then text "-" ++ decimal x.toInt.natAbs else decimal x.toInt.natAbs

/-- The lines for the header of a file. -/
def headerLines (h : Ehdr) : List (List Byte) :=
  [text "ELF Header:",
   text " Magic:  " ++ (List.ofFn h.ident).flatMap
     (fun b => [32, digit (b.toNat / 16), digit (b.toNat % 16)]),
   text " Class:                             " ++ text (nameIn "Unknown" classes (h.ident 4).toNat),
   text " Data:                              " ++ text (nameIn "Unknown" encodings (h.ident 5).toNat),
   text " Version:                           1 (current)",
   text " OS/ABI:                            " ++ text (nameIn "Unknown" systems (h.ident 7).toNat),
   text " ABI Version:                       " ++ decimal (h.ident 8).toNat,
   text " Type:                              " ++ text (nameIn "Unknown" fileTypes h.type.toNat),
   text " Machine:                           " ++ text (nameIn "Unknown" machines h.machine.toNat),
   text " Version:                           0x" ++ hex h.version.toNat,
   text " Entry point address:               0x" ++ hex h.entry.toNat,
   text " Start of program headers:          " ++ signed h.phoff ++ text " (bytes into file)",
   text " Start of section headers:          " ++ signed h.shoff ++ text " (bytes into file)",
   text " Flags:                             0x" ++ hex h.flags.toNat,
   text " Size of this header:               " ++ decimal h.ehsize.toNat ++ text " (bytes)",
   text " Size of program headers:           " ++ decimal h.phentsize.toNat ++ text " (bytes)",
   text " Number of program headers:         " ++ decimal h.phnum.toNat,
   text " Size of section headers:           " ++ decimal h.shentsize.toNat ++ text " (bytes)",
   text " Number of section headers:         " ++ decimal h.shnum.toNat,
   text " Section header string table index: " ++ decimal h.shstrndx.toNat]

/-- A number in 18 characters. -/
def wide (x : BitVec 64) : List Byte :=
  if x = 0 then text "000000000000000000" else text "0x" ++ zeros 16 (hex x.toNat)

/-- The letters of the access to a segment. -/
def access (f : BitVec 32) : List Byte :=
  text (if f.getLsbD 2 then "R" else " ") ++ text (if f.getLsbD 1 then "W" else " ") ++
    text (if f.getLsbD 0 then "X" else " ")

/-- The two lines of a program header. -/
def segmentLines (p : Phdr) : List (List Byte) :=
  [text "  " ++ left 16 (text (nameIn "UNKNOWN" segments p.type.toNat)) ++ text " " ++ wide p.offset ++
     text " " ++ wide p.vaddr ++ text " " ++ zeros 16 (hex p.paddr.toNat),
   text "  " ++ spaces 16 ++ text " " ++ wide p.filesz ++ text " " ++ wide p.memsz ++ text " " ++
     left 8 (access p.flags) ++ text " " ++ zeros 8 (hex p.align.toNat)]

/-- The two lines above program headers. -/
def segmentHead : List (List Byte) :=
  [text "  Type             Offset             VirtAddr           PhysAddr        ",
   text "                   FileSize           MemSize            Flags    Align   "]

/-- The line of a symbol, with this visibility. -/
def symbolLine (s : Sym) (vis : BitVec 2) (name : List Byte) : List Byte :=
  text " " ++ wide s.value ++ text " " ++ left 7 (signed s.size) ++ text " " ++
    left 8 (text (nameIn "UNKNOWN" symbolTypes (s.info.extractLsb' 0 4).toNat)) ++ text " " ++
    left 8 (text (nameIn "UNKNOWN" bindings (s.info.extractLsb' 4 4).toNat)) ++ text " " ++
    left 12 (text (nameIn "UNKNOWN" visibilities vis.toNat)) ++ text " " ++
    left 4 (decimal s.shndx.toNat) ++ text " " ++ name

def symbolHead : List Byte :=
  text " Value              Size    Type     Bind     Vis          Ndx  Name    "

end Ulp.ElfShowSpec
