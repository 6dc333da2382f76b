/-
The 16-byte redirect entry that is written over the start of a patched
function.
-/
import Verif.Model.Mem
namespace Ulp

/-- Supported machines (the `#if defined(__x86_64__)`/`__aarch64__` branches). -/
inductive Arch where
  | x86_64
  | aarch64
  deriving DecidableEq, Repr

/-- `arch_jmp_table_jmp` (src/patch/patch.c:639-650). -/
def archJmpTableJmp : Arch → BitVec 64
  | .x86_64 => 0x90900000000225ff
  | .aarch64 => 0xd61f022058000051

/-- The object representation of `struct jmp_table_entry` filled in by
`kick_target_process` (src/patch/patch.h:83-86, src/patch/patch.c:868-871):
`jmp` then `addr`, two little-endian 64-bit words, no padding. -/
def jmpEntry (arch : Arch) (patchFunc : Addr) : List Byte :=
  leBytes 8 (archJmpTableJmp arch) ++ leBytes 8 patchFunc

/-- `sizeof(struct jmp_table_entry)` (src/patch/patch.c:872). -/
def jmpEntrySize : Nat := 16

/-- The write of the entry over the start of the target function
(src/patch/patch.c:903-904) when the kernel transfers all bytes. -/
def installEntry (m : Mem) (arch : Arch) (target patchFunc : Addr) : Mem :=
  m.write target (jmpEntry arch patchFunc)

end Ulp
