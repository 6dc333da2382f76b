/-
Immediate fields and branch generation on aarch64 (src/arch/aarch64/insn.c).
-/
import Verif.Model.Mem
namespace Ulp.A64Insn

/-- `enum aarch64_insn_imm_type` (src/arch/aarch64/instruments.h:41-55). -/
inductive ImmType where
  | adr | i26 | i19 | i16 | i14 | i12 | i9 | i7 | i6 | s | r | n | max
  deriving DecidableEq, Repr

/-- `AARCH64_BREAK_FAULT` (src/arch/aarch64/debug-monitors.h:14-20,
src/arch/aarch64/brk-imm.h:24). -/
def BREAK_FAULT : BitVec 32 := 0xd4200000 ||| ((0x100 : BitVec 32) <<< 5)

/-- `aarch64_get_imm_shift_mask` (src/arch/aarch64/insn.c:70-126): mask and
shift, or `none` for `-EINVAL`. -/
def immShiftMask : ImmType → Option (BitVec 32 × Nat)
  | .i26 => some (0x3ffffff, 0)
  | .i19 => some (0x7ffff, 5)
  | .i16 => some (0xffff, 5)
  | .i14 => some (0x3fff, 5)
  | .i12 => some (0xfff, 10)
  | .i9 => some (0x1ff, 12)
  | .i7 => some (0x7f, 15)
  | .i6 => some (0x3f, 10)
  | .s => some (0x3f, 10)
  | .r => some (0x3f, 16)
  | .n => some (1, 22)
  | .adr => none
  | .max => none

def ADR_IMM_LOMASK : Nat := 3
def ADR_IMM_HIMASK : Nat := 0x7ffff

/-- `aarch64_insn_decode_immediate` (src/arch/aarch64/insn.c:135-158). -/
def decodeImm (t : ImmType) (insn : BitVec 32) : BitVec 64 :=
  match t with
  | .adr =>
    let immlo := (insn >>> 29) &&& BitVec.ofNat 32 ADR_IMM_LOMASK
    let immhi := (insn >>> 5) &&& BitVec.ofNat 32 ADR_IMM_HIMASK
    ((((immhi <<< 2) ||| immlo) >>> 0) &&& 0x1fffff).setWidth 64
  | t =>
    match immShiftMask t with
    | none => 0
    | some (mask, shift) => ((insn >>> shift) &&& mask).setWidth 64

/-- `aarch64_insn_encode_immediate` (src/arch/aarch64/insn.c:160-192). -/
def encodeImm (t : ImmType) (insn : BitVec 32) (imm : BitVec 64) : BitVec 32 :=
  if insn = BREAK_FAULT then BREAK_FAULT
  else
    match t with
    | .adr =>
      let immlo : BitVec 32 := ((imm &&& BitVec.ofNat 64 ADR_IMM_LOMASK) <<< 29).setWidth 32
      let imm' := imm >>> 2
      let immhi : BitVec 32 := ((imm' &&& BitVec.ofNat 64 ADR_IMM_HIMASK) <<< 5).setWidth 32
      let mask : BitVec 32 := 0x60ffffe0
      (insn &&& ~~~ mask) ||| ((immlo ||| immhi) &&& mask)
    | t =>
      match immShiftMask t with
      | none => BREAK_FAULT
      | some (mask, shift) =>
        (insn &&& ~~~ (mask <<< shift)) ||| ((imm &&& mask.setWidth 64) <<< shift).setWidth 32

/-- `branch_imm_common` (src/arch/aarch64/insn.c:50-68); the subtraction of the
two `long`s is taken modulo 2^64. -/
def branchImmCommon (pc addr : BitVec 64) (range : Int) : Int :=
  if pc &&& 3 ≠ 0 ∨ addr &&& 3 ≠ 0 then range
  else
    let offset := (addr - pc).toInt
    if offset < -range ∨ range ≤ offset then range else offset

/-- `enum aarch64_insn_branch_type` (src/arch/aarch64/instruments.h:32-38). -/
inductive BranchType where
  | nolink | link | ret | compZero | compNonzero
  deriving DecidableEq, Repr

/-- `aarch64_insn_gen_branch_imm` (src/arch/aarch64/insn.c:194-222).  The first
parameter is `unsigned`, so a caller's 64-bit address is truncated. -/
def genBranchImm (pc : BitVec 32) (addr : BitVec 64) (t : BranchType) : BitVec 32 :=
  let offset := branchImmCommon (pc.setWidth 64) addr 0x08000000
  if 0x08000000 ≤ offset then BREAK_FAULT
  else match t with
    | .link => encodeImm .i26 0x94000000 (BitVec.ofInt 64 (offset / 4))
    | .nolink => encodeImm .i26 0x14000000 (BitVec.ofInt 64 (offset / 4))
    | _ => BREAK_FAULT

end Ulp.A64Insn
