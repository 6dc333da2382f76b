/-
Instructions that do nothing on x86_64 (src/arch/x86_64/nops.h, src/arch/x86_64/alternative.c).
-/
import Verif.Model.X86Insn
namespace Ulp.Nops

/-- `GENERIC_NOP1` (src/arch/x86_64/nops.h:28). -/
def GENERIC_NOP1 : List Byte := [0x90]

/-- `K8_NOP1` to `K8_NOP8`, `K8_NOP5_ATOMIC` (src/arch/x86_64/nops.h:44-52). -/
def K8_NOP1 : List Byte := GENERIC_NOP1
def K8_NOP2 : List Byte := 0x66 :: K8_NOP1
def K8_NOP3 : List Byte := 0x66 :: K8_NOP2
def K8_NOP4 : List Byte := 0x66 :: K8_NOP3
def K8_NOP5 : List Byte := K8_NOP3 ++ K8_NOP2
def K8_NOP6 : List Byte := K8_NOP3 ++ K8_NOP3
def K8_NOP7 : List Byte := K8_NOP4 ++ K8_NOP3
def K8_NOP8 : List Byte := K8_NOP4 ++ K8_NOP4
def K8_NOP5_ATOMIC : List Byte := 0x66 :: K8_NOP4

/-- `P6_NOP1` to `P6_NOP8`, `P6_NOP5_ATOMIC` (src/arch/x86_64/nops.h:85-93). -/
def P6_NOP1 : List Byte := GENERIC_NOP1
def P6_NOP2 : List Byte := [0x66, 0x90]
def P6_NOP3 : List Byte := [0x0f, 0x1f, 0x00]
def P6_NOP4 : List Byte := [0x0f, 0x1f, 0x40, 0]
def P6_NOP5 : List Byte := [0x0f, 0x1f, 0x44, 0x00, 0]
def P6_NOP6 : List Byte := [0x66, 0x0f, 0x1f, 0x44, 0x00, 0]
def P6_NOP7 : List Byte := [0x0f, 0x1f, 0x80, 0, 0, 0, 0]
def P6_NOP8 : List Byte := [0x0f, 0x1f, 0x84, 0x00, 0, 0, 0, 0]
def P6_NOP5_ATOMIC : List Byte := P6_NOP5

/-- `ASM_NOP_MAX`, `NOP_ATOMIC5` (src/arch/x86_64/nops.h:115-116). -/
def ASM_NOP_MAX : Nat := 8
def NOP_ATOMIC5 : Nat := ASM_NOP_MAX + 1

/-- `k8nops` (src/arch/x86_64/alternative.c:12-23). -/
def k8nops : List Byte :=
  K8_NOP1 ++ K8_NOP2 ++ K8_NOP3 ++ K8_NOP4 ++ K8_NOP5 ++ K8_NOP6 ++ K8_NOP7 ++ K8_NOP8 ++
    K8_NOP5_ATOMIC

/-- `k8_nops` (src/arch/x86_64/alternative.c:24-36): places in `k8nops`, `none` for the null
pointer. -/
def k8_nops : List (Option Nat) :=
  [none, some 0, some 1, some (1 + 2), some (1 + 2 + 3), some (1 + 2 + 3 + 4),
   some (1 + 2 + 3 + 4 + 5), some (1 + 2 + 3 + 4 + 5 + 6), some (1 + 2 + 3 + 4 + 5 + 6 + 7),
   some (1 + 2 + 3 + 4 + 5 + 6 + 7 + 8)]

/-- `p6nops` (src/arch/x86_64/alternative.c:40-51). -/
def p6nops : List Byte :=
  P6_NOP1 ++ P6_NOP2 ++ P6_NOP3 ++ P6_NOP4 ++ P6_NOP5 ++ P6_NOP6 ++ P6_NOP7 ++ P6_NOP8 ++
    P6_NOP5_ATOMIC

/-- `p6_nops` (src/arch/x86_64/alternative.c:52-64): places in `p6nops`. -/
def p6_nops : List (Option Nat) :=
  [none, some 0, some 1, some (1 + 2), some (1 + 2 + 3), some (1 + 2 + 3 + 4),
   some (1 + 2 + 3 + 4 + 5), some (1 + 2 + 3 + 4 + 5 + 6), some (1 + 2 + 3 + 4 + 5 + 6 + 7),
   some (1 + 2 + 3 + 4 + 5 + 6 + 7 + 8)]

/-- The bytes from entry `k` of a table of places on, to the end of the array; `none` for the
null pointer and behind the end of the table. -/
def entry (tab : List (Option Nat)) (arr : List Byte) (k : Nat) : Option (List Byte) :=
  match tab[k]? with
  | some (some o) => some (arr.drop o)
  | _ => none

/-- `ideal_nops` (src/arch/x86_64/alternative.c:70). -/
def idealNops (k : Nat) : Option (List Byte) := entry p6_nops p6nops k

/-- `ftrace_nop_replace` (src/arch/x86_64/ftrace.c:15-18). -/
def ftraceNopReplace : Option (List Byte) := idealNops NOP_ATOMIC5

end Ulp.Nops
