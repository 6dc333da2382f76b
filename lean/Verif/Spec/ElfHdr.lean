/-
The bytes of ELF headers (System V ABI, little endian, 64 bit), and where the kernel
puts the segments of a file.
-/
import Verif.Model.Mem
namespace Ulp.ElfHdr

/-- An ELF header.  Parts that play no role are byte strings of the right length. -/
structure Hdr where
  pad : List Byte
  type : BitVec 16
  machine : BitVec 16
  entry : List Byte
  phoff : BitVec 64
  mid : List Byte
  phnum : BitVec 16
  tail : List Byte
  hpad : pad.length = 10
  hentry : entry.length = 8
  hmid : mid.length = 16
  htail : tail.length = 6

/-- Its 64 bytes: magic, 64 bit, little endian, ... -/
def Hdr.bytes (h : Hdr) : List Byte :=
  [0x7f, 0x45, 0x4c, 0x46, 2, 1] ++ h.pad ++ leBytes 2 (h.type.setWidth 64) ++
    leBytes 2 (h.machine.setWidth 64) ++ leBytes 4 1 ++ h.entry ++ leBytes 8 h.phoff ++ h.mid ++
    leBytes 2 (h.phnum.setWidth 64) ++ h.tail

/-- A program header. -/
structure Seg where
  type : BitVec 32
  flags : BitVec 32
  offset : BitVec 64
  vaddr : BitVec 64
  paddr : BitVec 64
  filesz : BitVec 64
  memsz : BitVec 64
  align : BitVec 64
  deriving DecidableEq

/-- Its 56 bytes. -/
def Seg.bytes (s : Seg) : List Byte :=
  leBytes 4 (s.type.setWidth 64) ++ leBytes 4 (s.flags.setWidth 64) ++ leBytes 8 s.offset ++
    leBytes 8 s.vaddr ++ leBytes 8 s.paddr ++ leBytes 8 s.filesz ++ leBytes 8 s.memsz ++ leBytes 8 s.align

/-- The bytes of a program header table. -/
def table : List Seg → List Byte
  | [] => []
  | s :: ss => s.bytes ++ table ss

/-- A loadable segment (`PT_LOAD`). -/
def Seg.loadable (s : Seg) : Prop := s.type = 1

/-- `low` is the lowest address of a loadable segment. -/
def Lowest (segs : List Seg) (low : BitVec 64) : Prop :=
  (∃ s ∈ segs, s.loadable ∧ s.vaddr = low) ∧ ∀ s ∈ segs, s.loadable → low ≤ s.vaddr

/-- The kernel loads a file with a bias: what has the address `a` in the file is at
`bias + a` in memory.  It maps whole pages of `2 ^ k` bytes, so the first mapping of
the file starts at the page of the lowest loadable address.  (A program that is not
position independent has the bias 0.) -/
def FirstMapping (k : Nat) (segs : List Seg) (bias start : BitVec 64) : Prop :=
  ∃ low, Lowest segs low ∧ start = bias + BitVec.ofNat 64 (low.toNat / 2 ^ k * 2 ^ k)

end Ulp.ElfHdr
