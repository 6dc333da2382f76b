/-
Alignment macros (src/utils/macros.h:26-68) and protection bits
(src/task/vma.c:165-188).

The macros are modelled at the width `w` of their first operand; the second one
has, as at every use in the code, the same width after the usual conversions.
-/
import Verif.Model.Mem
namespace Ulp.Align

/-- `ROUND_DOWN(x, m)` (src/utils/macros.h:32-34) -/
def roundDown {w : Nat} (x m : BitVec w) : BitVec w := x &&& ~~~(m - 1)

/-- `ROUND_UP(x, m)` (src/utils/macros.h:35-37) -/
def roundUp {w : Nat} (x m : BitVec w) : BitVec w := (x + m - 1) &&& ~~~(m - 1)

/-- `__ALIGN_KERNEL_MASK(x, mask)` (src/utils/macros.h:57-59) -/
def alignMask {w : Nat} (x mask : BitVec w) : BitVec w := (x + mask) &&& ~~~mask

/-- `ALIGN(x, a)` (src/utils/macros.h:54-56, 67) -/
def align {w : Nat} (x a : BitVec w) : BitVec w := alignMask x (a - 1)

/-- `ALIGN_DOWN(x, a)` (src/utils/macros.h:68) -/
def alignDown {w : Nat} (x a : BitVec w) : BitVec w := align (x - (a - 1)) a

/-- `PAGE_SIZE` (src/init.h:8) -/
def pageSize (shift : Nat) : BitVec 64 := 1 <<< shift

/-- `ELF_PAGESTART(v)` (src/utils/macros.h:28), `PAGE_DOWN(v)` (40) -/
def pageStart (shift : Nat) (v : BitVec 64) : BitVec 64 := v &&& ~~~(pageSize shift - 1)

/-- `ELF_PAGEOFFSET(v)` (src/utils/macros.h:29) -/
def pageOffset (shift : Nat) (v : BitVec 64) : BitVec 64 := v &&& (pageSize shift - 1)

/-- `ELF_PAGEALIGN(v)` (src/utils/macros.h:30), `PAGE_UP(v)` (43) -/
def pageAlign (shift : Nat) (v : BitVec 64) : BitVec 64 :=
  (v + pageSize shift - 1) &&& ~~~(pageSize shift - 1)

/-- `PAGE_DOWN(x)` (src/utils/macros.h:39-41) -/
def pageDown (shift : Nat) (v : BitVec 64) : BitVec 64 := roundDown v (pageSize shift)

/-- `PAGE_UP(x)` (src/utils/macros.h:42-44) -/
def pageUp (shift : Nat) (v : BitVec 64) : BitVec 64 := roundUp v (pageSize shift)

def PROT_READ : BitVec 32 := 1
def PROT_WRITE : BitVec 32 := 2
def PROT_EXEC : BitVec 32 := 4
def PF_X : BitVec 32 := 1
def PF_W : BitVec 32 := 2
def PF_R : BitVec 32 := 4

/-- `vma_perms2prot` (src/task/vma.c:165-177).  `perms` is a buffer of at least
three bytes; a shorter one is read out of bounds (`none`). -/
def perms2prot : List Byte → Option (BitVec 32)
  | a :: b :: c :: _ =>
    let p0 : BitVec 32 := 0
    let p1 := if a = 114 then p0 ||| PROT_READ else p0
    let p2 := if b = 119 then p1 ||| PROT_WRITE else p1
    some (if c = 120 then p2 ||| PROT_EXEC else p2)
  | _ => none

/-- `vma_prot2flags` (src/task/vma.c:179-188) -/
def prot2flags (prot : BitVec 32) : BitVec 32 :=
  let f0 : BitVec 32 := 0
  let f1 := f0 ||| (if prot &&& PROT_READ ≠ 0 then PF_R else 0)
  let f2 := f1 ||| (if prot &&& PROT_WRITE ≠ 0 then PF_W else 0)
  f2 ||| (if prot &&& PROT_EXEC ≠ 0 then PF_X else 0)

end Ulp.Align
