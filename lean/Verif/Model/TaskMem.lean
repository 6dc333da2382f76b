/-
Strings and instructions in the memory of another process (src/task/memcpy.c,
src/arch/aarch64/insn.c, src/arch/aarch64/ftrace.c).  Here the system decides from the memory
map how many bytes `pread` and `pwrite` move.
-/
import Verif.Model.Ultask
namespace Ulp.TaskMem
open Ulp.Ultask (memcpyFromTask memcpyToTask)

/-- What `/proc/PID/mem` shows (src/task/memcpy.c:70, 84): the memory, which addresses are
mapped, and whether the process has ended. -/
structure Space where
  mem : Mem
  mapped : Addr → Bool
  gone : Bool

/-- The bytes that `pread` or `pwrite` of `n` bytes at `a` moves (the system, for
src/task/memcpy.c:70, 84): up to the first byte that is not mapped; an error if that is the
first one; nothing from a process that has ended. -/
def Space.moved (s : Space) (a : Addr) (n : Nat) : Option Nat :=
  if s.gone then some 0
  else
    let k := ((List.range n).takeWhile fun i => s.mapped (a + BitVec.ofNat 64 i)).length
    if k = 0 ∧ n ≠ 0 then none else some k

/-- `MAX_STR_LEN` (src/task/memcpy.c:94). -/
def MAX_STR_LEN : Nat := 1024

/-- The loop of `strcpy_from_task` (src/task/memcpy.c:100-104) from `i` on, where `dst` is
all of the buffer; `none` is a write behind its end. -/
def strcpyLoop (s : Space) (dst : List Byte) (src : Addr) (i : Nat) : Option (List Byte) :=
  match dst[i]? with
  | none => none
  | some old =>
    let got := memcpyFromTask s.mem (src + BitVec.ofNat 64 i) [old]
      (s.moved (src + BitVec.ofNat 64 i) 1)
    let dst' := dst.take i ++ got.1 ++ dst.drop (i + 1)
    if dst'[i]? = some 0 then some dst'
    else if h : MAX_STR_LEN ≤ i then some dst'
    else strcpyLoop s dst' src (i + 1)
  termination_by MAX_STR_LEN - i

/-- `strcpy_from_task` (src/task/memcpy.c:96-106): the buffer afterwards. -/
def strcpyFromTask (s : Space) (dst : List Byte) (src : Addr) : Option (List Byte) :=
  strcpyLoop s dst src 0

/-- `strcpy_to_task` (src/task/memcpy.c:108-113) of a string without its NUL: the process
afterwards.  What is returned is always the source. -/
def strcpyToTask (s : Space) (dst : Addr) (src : List Byte) : Space :=
  { s with mem := (memcpyToTask s.mem dst (src ++ [0]) (s.moved dst (src.length + 1))).1 }

/-- `AARCH64_INSN_SIZE` (src/arch/aarch64/instruments.h:11). -/
def AARCH64_INSN_SIZE : Nat := 4

/-- `aarch64_insn_read` (src/arch/aarch64/insn.c:16-27): the result, and what is stored.
`uninit` is what the variable `val` holds before. -/
def insnRead (s : Space) (addr : Addr) (uninit : BitVec 32) : Int × Option (BitVec 32) :=
  let got := memcpyFromTask s.mem addr (leBytes 4 (uninit.setWidth 64))
    (s.moved addr AARCH64_INSN_SIZE)
  if got.2 ≠ 0 then (0, some (BitVec.ofNat 32 (leNat got.1))) else (-1, none)

/-- `aarch64_insn_write` (src/arch/aarch64/insn.c:29-47). -/
def insnWrite (s : Space) (addr : Addr) (insn : BitVec 32) : Space × Int :=
  if addr &&& 3 ≠ 0 then (s, -22)
  else
    let put := memcpyToTask s.mem addr (leBytes 4 (insn.setWidth 64))
      (s.moved addr AARCH64_INSN_SIZE)
    ({ s with mem := put.1 }, if put.2 ≠ 0 then 0 else -1)

/-- The check of `ftrace_modify_code` (src/arch/aarch64/ftrace.c:33-40): 0 if the
instruction may be replaced. -/
def validateInsn (s : Space) (pc : Addr) (old uninit : BitVec 32) : Int :=
  match insnRead s pc uninit with
  | (0, some replaced) => if replaced ≠ old then -22 else 0
  | _ => -14

/-- `ftrace_modify_code` (src/arch/aarch64/ftrace.c:20-47). -/
def modifyCode (s : Space) (pc : Addr) (old new : BitVec 32) (validate : Bool)
    (uninit : BitVec 32) : Space × Int :=
  let v := if validate then validateInsn s pc old uninit else 0
  if v ≠ 0 then (s, v)
  else
    let w := insnWrite s pc new
    (w.1, if w.2 ≠ 0 then -1 else 0)

/-- `aarch64_insn_is_bl` (src/arch/aarch64/instruments.h:140, with the macro 58-67). -/
def insnIsBl (w : BitVec 32) : Bool := w &&& 0xFC000000 == 0x94000000

/-- `aarch64_func_bl_offset` (src/arch/aarch64/insn.c:224-234) from `offset` on, where
`words` are the instructions that can be read there; `none` is a read behind them. -/
def funcBlOffset (words : List (BitVec 32)) (offset : BitVec 32) : Option (BitVec 32) :=
  match words with
  | [] => none
  | w :: ws => if insnIsBl w then some offset else funcBlOffset ws (offset + 4)

end Ulp.TaskMem
