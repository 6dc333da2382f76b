/-
Generating call and jump instructions on x86_64 (src/arch/x86_64/insn.c).
-/
import Verif.Model.Mem
namespace Ulp.X86Insn

/-- `union text_poke_insn` (src/arch/x86_64/instruments.h:53-59): packed opcode
byte and 32-bit displacement, 5 bytes. -/
structure TextPoke where
  opcode : BitVec 8
  disp : BitVec 32

/-- The `text` member: the object representation. -/
def TextPoke.text (t : TextPoke) : List Byte :=
  t.opcode :: leBytes 4 (t.disp.setWidth 64)

/-- `text_opcode_size` (src/arch/x86_64/insn.c:17-33). -/
def opcodeSize (op : BitVec 8) : Nat :=
  if op = 0xcc then 1       -- INT3
  else if op = 0xc3 then 1  -- RET
  else if op = 0xe8 then 5  -- CALL
  else if op = 0xe9 then 5  -- JMP32
  else if op = 0xeb then 2  -- JMP8
  else 0

/-- `text_gen_insn` (src/arch/x86_64/insn.c:35-57).  `old` is the previous
content of the buffer.  The out-of-range message for `JMP8` (lines 45-52) only
logs. -/
def genInsn (old : TextPoke) (op : BitVec 8) (addr dest : Addr) : TextPoke :=
  if 1 < opcodeSize op then
    { opcode := op, disp := (dest - (addr + BitVec.ofNat 64 (opcodeSize op))).setWidth 32 }
  else { old with opcode := op }

/-- `ulpatch_jmpq_replace` (src/arch/x86_64/patch.c:17-21). -/
def jmpqReplace (old : TextPoke) (ip addr : Addr) : TextPoke := genInsn old 0xe9 ip addr

/-- `ftrace_call_replace` (src/arch/x86_64/ftrace.c:20-24). -/
def callReplace (old : TextPoke) (ip addr : Addr) : TextPoke := genInsn old 0xe8 ip addr

/-- `x86_64_func_callq_offset` (src/arch/x86_64/insn.c:65-75), scanning at most
`fuel` bytes: offset of the first 0xe8 byte.  Simplification: the 32-bit wrap
of `offset` is not modelled; the C loop has no bound. -/
def callqOffset (m : Mem) (f : Addr) : Nat → Nat → Option Nat
  | 0, _ => none
  | fuel + 1, off =>
    if m (f + BitVec.ofNat 64 off) = 0xe8 then some off else callqOffset m f fuel (off + 1)

end Ulp.X86Insn
