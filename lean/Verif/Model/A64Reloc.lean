/-
Relocating a patch image on aarch64 (src/arch/aarch64/patch.c).
-/
import Verif.Model.A64Insn
import Verif.Model.Rela
namespace Ulp.A64Reloc
open A64Insn

/-- `enum aarch64_reloc_op` (src/arch/aarch64/patch.c:14-19), the three used. -/
inductive Op where
  | abs | prel | page
  deriving DecidableEq, Repr

/-- `do_reloc` (src/arch/aarch64/patch.c:21-37).  `place` is the host pointer
the caller passes. -/
def doReloc (op : Op) (place : Addr) (val : BitVec 64) : BitVec 64 :=
  match op with
  | .abs => val
  | .prel => val - place
  | .page => (val &&& ~~~ 0xfff) - (place &&& ~~~ 0xfff)

/-- `reloc_data` (src/arch/aarch64/patch.c:39-97): stored bytes and whether
`-ERANGE` is returned.  Data relocations are only called with `ABS`/`PREL` and
16, 32 or 64 bits. -/
def relocData (op : Op) (place : Addr) (val : BitVec 64) (len : Nat) : List Byte × Bool :=
  let sval := doReloc op place val
  let ovf : Bool :=
    if len = 64 then false
    else match op with
      | .abs => decide (sval.toInt < 0) || decide ((2:Int)^len ≤ sval.toInt)
      | _ => decide (sval.toInt < -(2:Int)^(len-1)) || decide ((2:Int)^(len-1) ≤ sval.toInt)
  (leBytes (len / 8) sval, ovf)

/-- `reloc_insn_movw` (src/arch/aarch64/patch.c:105-145): new instruction and
whether `-ERANGE` is returned.  `movnz` is `imm_type == AARCH64_INSN_IMM_MOVNZ`. -/
def relocMovw (op : Op) (place : Addr) (val : BitVec 64) (lsb : Nat) (movnz : Bool)
    (insn : BitVec 32) : BitVec 32 × Bool :=
  let sval := doReloc op place val
  let imm := sval.sshiftRight lsb
  let insn1 := if movnz then
      (if 0 ≤ sval.toInt then (insn &&& ~~~ ((3 : BitVec 32) <<< 29)) ||| ((2 : BitVec 32) <<< 29)
       else insn &&& ~~~ ((3 : BitVec 32) <<< 29))
    else insn
  let imm1 := if movnz then (if 0 ≤ sval.toInt then imm else ~~~ imm) else imm
  (encodeImm .i16 insn1 imm1, decide (0xffff < imm1.toNat))

/-- `reloc_insn_imm` (src/arch/aarch64/patch.c:147-181). -/
def relocImm (op : Op) (place : Addr) (val : BitVec 64) (lsb len : Nat) (t : ImmType)
    (insn : BitVec 32) : BitVec 32 × Bool :=
  let sval := (doReloc op place val).sshiftRight lsb
  let immMask : BitVec 64 := (((1 : BitVec 64) <<< (lsb + len)) - 1) >>> lsb
  let imm := sval &&& immMask
  let hi := (sval &&& ~~~ (immMask >>> 1)).sshiftRight (len - 1)
  (encodeImm t insn imm, decide (2 ≤ (hi + 1).toNat))

/-- What one relocation type does. -/
inductive Act where
  | nothing
  | data (op : Op) (len : Nat)
  | movw (op : Op) (lsb : Nat) (movnz : Bool)
  | imm (op : Op) (lsb len : Nat) (t : ImmType)
  deriving DecidableEq, Repr

/-- The `switch` (src/arch/aarch64/patch.c:230-405): action, and whether the
case sets `overflow_check = false`. Numbers from `elf.h`. -/
def table (n : Nat) : Option (Act × Bool) :=
  match n with
  | 0 => some (.nothing, false)                       -- R_AARCH64_NONE
  | 257 => some (.data .abs 64, true)                 -- ABS64
  | 258 => some (.data .abs 32, false)                -- ABS32
  | 259 => some (.data .abs 16, false)                -- ABS16
  | 260 => some (.data .prel 64, true)                -- PREL64
  | 261 => some (.data .prel 32, false)               -- PREL32
  | 262 => some (.data .prel 16, false)               -- PREL16
  | 263 => some (.movw .abs 0 false, false)           -- MOVW_UABS_G0
  | 264 => some (.movw .abs 0 false, true)            -- MOVW_UABS_G0_NC
  | 265 => some (.movw .abs 16 false, false)          -- MOVW_UABS_G1
  | 266 => some (.movw .abs 16 false, true)           -- MOVW_UABS_G1_NC
  | 267 => some (.movw .abs 32 false, false)          -- MOVW_UABS_G2
  | 268 => some (.movw .abs 32 false, true)           -- MOVW_UABS_G2_NC
  | 269 => some (.movw .abs 48 false, true)           -- MOVW_UABS_G3
  | 270 => some (.movw .abs 0 true, false)            -- MOVW_SABS_G0
  | 271 => some (.movw .abs 16 true, false)           -- MOVW_SABS_G1
  | 272 => some (.movw .abs 32 true, false)           -- MOVW_SABS_G2
  | 273 => some (.imm .prel 2 19 .i19, false)         -- LD_PREL_LO19
  | 274 => some (.imm .prel 0 21 .adr, false)         -- ADR_PREL_LO21
  | 275 => some (.imm .page 12 21 .adr, false)        -- ADR_PREL_PG_HI21
  | 276 => some (.imm .page 12 21 .adr, true)         -- ADR_PREL_PG_HI21_NC
  | 277 => some (.imm .abs 0 12 .i12, true)           -- ADD_ABS_LO12_NC
  | 278 => some (.imm .abs 0 12 .i12, true)           -- LDST8_ABS_LO12_NC
  | 279 => some (.imm .prel 2 14 .i14, false)         -- TSTBR14
  | 280 => some (.imm .prel 2 19 .i19, false)         -- CONDBR19
  | 282 => some (.imm .prel 2 26 .i26, false)         -- JUMP26
  | 283 => some (.imm .prel 2 26 .i26, false)         -- CALL26
  | 284 => some (.imm .abs 1 11 .i12, true)           -- LDST16_ABS_LO12_NC
  | 285 => some (.imm .abs 2 10 .i12, true)           -- LDST32_ABS_LO12_NC
  | 286 => some (.imm .abs 3 9 .i12, true)            -- LDST64_ABS_LO12_NC
  | 287 => some (.movw .prel 0 true, false)           -- MOVW_PREL_G0
  | 288 => some (.movw .prel 0 false, true)           -- MOVW_PREL_G0_NC
  | 289 => some (.movw .prel 16 true, false)          -- MOVW_PREL_G1
  | 290 => some (.movw .prel 16 false, true)          -- MOVW_PREL_G1_NC
  | 291 => some (.movw .prel 32 true, false)          -- MOVW_PREL_G2
  | 292 => some (.movw .prel 32 false, true)          -- MOVW_PREL_G2_NC
  | 293 => some (.movw .prel 48 true, true)           -- MOVW_PREL_G3
  | 299 => some (.imm .abs 4 8 .i12, true)            -- LDST128_ABS_LO12_NC
  | _ => none

/-- `loc` (src/arch/aarch64/patch.c:202, 217-218): where the field is in the
host. -/
def loc (c : RelaCtx) (r : Rela) : Addr := c.secAddr + (c.hdr - c.targetHdr) + r.offset

/-- `*place` for a `uint32_t *`, little endian (src/arch/aarch64/patch.c:111, 153). -/
def word (m : Mem) (a : Addr) : BitVec 32 := m (a + 3) ++ m (a + 2) ++ m (a + 1) ++ m a

/-- Run an action on host memory: new memory, overflow reported. -/
def run (a : Act) (place : Addr) (val : BitVec 64) (m : Mem) : Mem × Bool :=
  match a with
  | .nothing => (m, false)
  | .data op len =>
    (m.write place (relocData op place val len).1, (relocData op place val len).2)
  | .movw op lsb nz =>
    (m.write place (leBytes 4 ((relocMovw op place val lsb nz (word m place)).1.setWidth 64)),
      (relocMovw op place val lsb nz (word m place)).2)
  | .imm op lsb len t =>
    (m.write place (leBytes 4 ((relocImm op place val lsb len t (word m place)).1.setWidth 64)),
      (relocImm op place val lsb len t (word m place)).2)

/-- The loop of `arch_apply_relocate_add` (src/arch/aarch64/patch.c:192-418).
`chk` is the variable `overflow_check`: never initialised (line 198), never set
to true. `none`: symbol index outside the table. -/
def applyAll (c : RelaCtx) : Bool → List Rela → Mem → Option (Mem × Int)
  | _, [], m => some (m, 0)
  | chk, r :: rs, m =>
    match c.syms[r.sym]? with
    | none => none
    | some s =>
      match table r.type with
      | none => some (m, RELOC_ENOEXEC)
      | some (a, nc) =>
        let p := run a (loc c r) (s.value + r.addend) m
        let chk' := chk && !nc
        if chk' && p.2 then some (p.1, RELOC_ENOEXEC) else applyAll c chk' rs p.1

/-- `arch_apply_relocate_add`; `junk` is the initial content of
`overflow_check`. -/
def relocate (c : RelaCtx) (junk : Bool) (m : Mem) : Option (Mem × Int) :=
  applyAll c junk c.rels m

end Ulp.A64Reloc
