/-
The disassembly of memory of a process (src/utils/disasm.c, src/ultask.c:828-853), for a build
with the disassembler library capstone.  The text written to the stream is a list of bytes;
memory is not exhausted, and what is logged is not modelled.
-/
import Verif.Model.Listing
namespace Ulp.Disasm
open Ulp.Load (lit hex2)
open Ulp.Listing (leftCol lx)
open Ulp.VmaType (dec)

/-- `s ?: ""` (src/utils/disasm.c:42, src/utils/string.c:77-78). -/
def orEmpty : Option (List Byte) → List Byte
  | some s => s
  | none => []

/-- `print_string_hex` (src/utils/string.c:73-82). -/
def printStringHex (comment : Option (List Byte)) (str : List Byte) : List Byte :=
  orEmpty comment ++
    str.flatMap (fun c => lit "0x" ++ hex2 c ++ lit " ") ++ lit "\n"

/-- `print_bytes` (src/utils/string.c:84-91): the text and the number of characters. -/
def printBytes (mem : List Byte) : List Byte × Nat :=
  let t := mem.flatMap fun c => hex2 c ++ lit " "
  (t, t.length)

/-- `fmembytes` (src/utils/string.c:93-105). -/
def fmembytes : List Byte → List Byte
  | [] => lit "\n"
  | [b] => lit "0x" ++ hex2 b ++ lit "\n"
  | b :: c :: l => lit "0x" ++ hex2 b ++ lit "," ++ fmembytes (c :: l)

/-- `cs_insn` (capstone): address, bytes, mnemonic and operands of an instruction; `size` is the
number of the bytes. -/
structure Insn where
  address : BitVec 64
  bytes : List Byte
  mnemonic : List Byte
  opStr : List Byte

/-- `DISASM_ARCH_X86_64`, `DISASM_ARCH_AARCH64` (src/utils/disasm.h:9-10). -/
def DISASM_ARCH_X86_64 : Int := 1
def DISASM_ARCH_AARCH64 : Int := 2

/-- The disassembler library: whether `cs_open` succeeds for an architecture, and what
`cs_disasm` gives for bytes at an address. -/
structure Lib where
  opens : Int → Bool
  disasm : Int → List Byte → BitVec 64 → List Insn

/-- The size of the longest instruction (src/utils/disasm.c:73-75). -/
def maxSize : Nat → List Insn → Nat
  | m, [] => m
  | m, i :: l => maxSize (if m < i.bytes.length then i.bytes.length else m) l

/-- One line (src/utils/disasm.c:84-92). -/
def insnLine (prefix_ : List Byte) (max : Nat) (i : Insn) : List Byte :=
  prefix_ ++ lit "0x" ++ lx i.address.toNat ++ lit ": " ++ (printBytes i.bytes).1 ++
    leftCol (max - (printBytes i.bytes).2) [] ++ lit " " ++
    lit "\t" ++ i.mnemonic ++ lit "\t" ++ i.opStr ++ lit "\n"

/-- `fdisasm` (src/utils/disasm.c:31-101): what is returned and the text.  `code` are the
bytes at the address `ptr` of the program itself. -/
def fdisasm (lib : Lib) (pfx : Option (List Byte)) (arch : Int) (base : BitVec 64)
    (ptr : BitVec 64) (code : List Byte) : Int × List Byte :=
  let prefix_ := orEmpty pfx
  let address := if base = 0 then ptr else base
  if arch ≠ DISASM_ARCH_X86_64 ∧ arch ≠ DISASM_ARCH_AARCH64 then (-22, [])
  else if lib.opens arch = false then (-22, [])
  else
    let insn := lib.disasm arch code address
    match insn.getLast? with
    | none => (-22, [])
    | some last =>
      let max := maxSize 0 insn * 3
      (0, prefix_ ++ lit "Disasm: code addr 0x" ++ lx ptr.toNat ++ lit ", size " ++
        dec code.length ++ lit ", count " ++ dec insn.length ++ lit "\n" ++
        insn.flatMap (insnLine prefix_ max) ++
        prefix_ ++ lit "0x" ++ lx (last.address + BitVec.ofNat 64 last.bytes.length).toNat ++
        lit ":\n")

/-- `fdisasm_arch` (src/utils/disasm.c:25-29), for the architecture the program is built for
(`current_disasm_arch`, src/utils/disasm.c:14-23). -/
def fdisasmArch (lib : Lib) (arch : Int) (pfx : Option (List Byte)) (base : BitVec 64)
    (ptr : BitVec 64) (code : List Byte) : Int × List Byte :=
  fdisasm lib pfx arch base ptr code

/-- `run_disasm` (src/ultask.c:828-853): what is returned and the text.  `mem` is the memory that
`malloc` gives, at the address `ptr`; `read` are the bytes that `memcpy_from_task` gives, at most
`size`, or `none` if it fails.  Messages on `stderr` are not modelled. -/
def runDisasm (lib : Lib) (arch : Int) (addr size : BitVec 64) (ptr : BitVec 64) (mem : List Byte)
    (read : Option (List Byte)) : Int × List Byte :=
  if addr = 0 ∨ size = 0 then (0, [])
  else
    match read with
    | none => (-12, [])
    | some [] => (-12, [])
    | some (b :: r) =>
      let mem := (b :: r) ++ mem.drop (r.length + 1)
      let out := fdisasmArch lib arch none 0 ptr mem
      (out.1, printStringHex (some (lit "Hex: ")) mem ++ out.2)

end Ulp.Disasm
