/-
The command lines of the tools (src/ultask.c, src/ulpatch.c, src/ulftrace.c,
src/args-common.c).

The model starts with the list of options that `getopt_long` returns, in order, with their
arguments; how they come from the words of a command line is in `Verif.Model.Getopt`.  What is printed is not modelled.
`exit(n)` is `.error n`.
-/
import Verif.Model.Str
namespace Ulp.Cli
open Ulp.Load (lit)
open Ulp.Str

/-- What `getopt_long` returns, for any of the tools (src/args-common.c:51-101,
src/ultask.c:251-267, src/ulpatch.c:86-93, src/ulftrace.c:79-85).  `stop` is an option
that ends the program in the loop: `-V`, `-h`, `--info` and `--map-pfx` with 0, an option
that is not known with 1, a log level that is not known with its
negative number.  `other` is an option that sets something not modelled: `-v`,
`--log-debug`, `--log-error`, `--log-level` with a known level. -/
inductive Opt where
  | pid (arg : List Byte)
  | vmas | threads | fds | auxv | status | symbols
  | dump (arg : List Byte)
  | jmp (arg : List Byte)
  | map (arg : List Byte)
  | mprotect (arg : List Byte)
  | unmap (arg : List Byte)
  | output (arg : List Byte)
  | patch (arg : List Byte)
  | unpatch
  | function (arg : List Byte)
  | patchObj (arg : List Byte)
  | dryRun
  | force
  | other
  | stop (code : Int)
  deriving DecidableEq

/-- `atoi` (libc): `strtol` in base 10, cut to an `int`. -/
def atoi (s : List Byte) : BitVec 32 :=
  let cut (v : Nat) : BitVec 32 := if v < 2 ^ 63 then BitVec.ofNat 32 v else -1
  match s.dropWhile isSpace with
  | [] => 0
  | c :: r =>
    if c = 45 then
      let v := digits 10 0 r
      if v ≤ 2 ^ 63 then - BitVec.ofNat 32 v else 0
    else if c = 43 then cut (digits 10 0 r)
    else cut (digits 10 0 (c :: r))

/-- One sub-option: its name, and what is behind the first `=`, if there is one. -/
abbrev Sub := List Byte × Option (List Byte)

/-- The name and the value of one piece (libc, `getsubopt`). -/
def subOf (p : List Byte) : Sub :=
  (p.takeWhile (· ≠ 61),
    match p.dropWhile (· ≠ 61) with
    | [] => none
    | _ :: v => some v)

/-- The loop `while (*subopts != '\0') getsubopt(..)` (libc, src/ultask.c:290 and
others): the pieces between the commas.  Nothing is behind a comma at the end. -/
def subopts (s : List Byte) : List Sub :=
  match s with
  | [] => []
  | c :: r =>
    subOf ((c :: r).takeWhile (· ≠ 44)) :: subopts (((c :: r).dropWhile (· ≠ 44)).drop 1)
  termination_by s.length
  decreasing_by exact afterComma_lt c r

/-- `str2addr` of a value that may be missing (src/utils/string.c:347-350). -/
def addrOf : Option (List Byte) → BitVec 64
  | none => 0
  | some v => str2addr v

/-- `str2size` of a value that may be missing (src/utils/string.c:323-326). -/
def sizeOf : Option (List Byte) → BitVec 64
  | none => 0
  | some v => str2size v

/-- The variables set by the options, with the values of `ultask_args_reset`
(src/ultask.c:108-190) and src/args-common.c:10-11, src/init.c:26. -/
structure Cfg where
  pid : BitVec 32 := -1
  vmas : Bool := false
  dumpVma : Bool := false
  dumpVdso : Bool := false
  dumpMem : Bool := false
  unmapIt : Bool := false
  mapFile : Option (List Byte) := none
  mapRo : Bool := false
  mapNoexec : Bool := false
  mapAddr : BitVec 64 := 0
  unmapAddr : BitVec 64 := 0
  mprotAddr : BitVec 64 := 0
  mprotLen : BitVec 64 := 0
  mprotProt : BitVec 64 := 7
  vmaAddr : BitVec 64 := 0
  dumpAddr : BitVec 64 := 0
  dumpSize : BitVec 64 := 0
  jmpFrom : BitVec 64 := 0
  jmpTo : BitVec 64 := 0
  symbols : Bool := false
  threads : Bool := false
  fds : Bool := false
  auxv : Bool := false
  status : Bool := false
  disasm : Bool := false
  disasmAddr : BitVec 64 := 0
  disasmSize : BitVec 64 := 0
  output : Option (List Byte) := none
  rdonly : Bool := true
  force : Bool := false
  dryRun : Bool := false
  deriving DecidableEq

/-- A sub-option of `--dump` (src/ultask.c:291-311). -/
def dumpSub (c : Cfg) (p : Sub) : Except Int Cfg :=
  if p.1 = lit "vma" then .ok { c with dumpVma := true }
  else if p.1 = lit "vdso" then .ok { c with dumpVdso := true }
  else if p.1 = lit "disasm" then .ok { c with disasm := true }
  else if p.1 = lit "addr" then .ok { c with dumpAddr := addrOf p.2 }
  else if p.1 = lit "size" then .ok { c with dumpSize := sizeOf p.2 }
  else .error 1

/-- The checks behind the sub-options of `--dump` (src/ultask.c:314-348). -/
def dumpCheck (c : Cfg) : Except Int Cfg :=
  if (c.dumpVma || c.dumpVdso) && c.disasm then .error 1
  else if c.dumpVma && c.dumpVdso then .error 1
  else if c.dumpVma then
    if c.dumpAddr = 0 then .error 1 else .ok { c with vmaAddr := c.dumpAddr }
  else if c.disasm then
    if c.dumpAddr = 0 ∨ c.dumpSize = 0 then .error 1
    else .ok { c with disasmAddr := c.dumpAddr, disasmSize := c.dumpSize }
  else if c.dumpVdso then
    if c.dumpAddr ≠ 0 ∨ c.dumpSize ≠ 0 then .error 1 else .ok { c with dumpAddr := 0 }
  else
    if c.dumpAddr = 0 ∨ c.dumpSize = 0 then .error 1 else .ok { c with dumpMem := true }

/-- A sub-option of `--jmp` (src/ultask.c:353-364). -/
def jmpSub (c : Cfg) (p : Sub) : Except Int Cfg :=
  if p.1 = lit "from" then .ok { c with jmpFrom := addrOf p.2 }
  else if p.1 = lit "to" then .ok { c with jmpTo := addrOf p.2 }
  else .error 1

/-- src/ultask.c:366-370 -/
def jmpCheck (c : Cfg) : Except Int Cfg :=
  if c.jmpFrom = 0 ∨ c.jmpTo = 0 then .error 1 else .ok { c with rdonly := false }

/-- A sub-option of `--map` (src/ultask.c:375-396).  `file` without a value leaves a null
pointer. -/
def mapSub (c : Cfg) (p : Sub) : Except Int Cfg :=
  if p.1 = lit "file" then .ok { c with mapFile := p.2 }
  else if p.1 = lit "ro" then .ok { c with mapRo := true }
  else if p.1 = lit "noexec" then .ok { c with mapNoexec := true }
  else if p.1 = lit "addr" then
    if addrOf p.2 = 0 then .error 22 else .ok { c with mapAddr := addrOf p.2 }
  else .error 1

/-- src/ultask.c:398-402 -/
def mapCheck (c : Cfg) : Except Int Cfg :=
  if c.mapFile = none then .error 1 else .ok { c with rdonly := false }

/-- A sub-option of `--mprotect` (src/ultask.c:414-438); the flag is
`flag_prot_none`. -/
def mprotSub (c : Cfg × Bool) (p : Sub) : Except Int (Cfg × Bool) :=
  if p.1 = lit "addr" then .ok ({ c.1 with mprotAddr := addrOf p.2 }, c.2)
  else if p.1 = lit "len" then .ok ({ c.1 with mprotLen := addrOf p.2 }, c.2)
  else if p.1 = lit "none" then .ok (c.1, true)
  else if p.1 = lit "read" then .ok ({ c.1 with mprotProt := c.1.mprotProt ||| 1 }, c.2)
  else if p.1 = lit "write" then .ok ({ c.1 with mprotProt := c.1.mprotProt ||| 2 }, c.2)
  else if p.1 = lit "exec" then .ok ({ c.1 with mprotProt := c.1.mprotProt ||| 4 }, c.2)
  else .error 1

/-- src/ultask.c:440-461; the size of a page is a parameter. -/
def mprotCheck (page : BitVec 64) (c : Cfg × Bool) : Except Int Cfg :=
  if c.2 ∧ c.1.mprotProt ≠ 0 then .error 22
  else if c.1.mprotAddr = 0 ∨ c.1.mprotLen = 0 then .error 1
  else if c.1.mprotAddr % page ≠ 0 ∨ c.1.mprotLen % page ≠ 0 then .error 1
  else .ok { c.1 with rdonly := false }

/-- What one option does to the variables of ultask: the body of the loop
(src/ultask.c:281-489).  The options of the other tools are not known to it. -/
def taskOpt (page : BitVec 64) (c : Cfg) : Opt → Except Int Cfg
  | .pid a => .ok { c with pid := atoi a }
  | .vmas => .ok { c with vmas := true }
  | .dump a => ((subopts a).foldlM dumpSub c).bind dumpCheck
  | .jmp a => ((subopts a).foldlM jmpSub c).bind jmpCheck
  | .map a => ((subopts a).foldlM mapSub c).bind mapCheck
  | .unmap a => .ok { c with unmapIt := true, rdonly := false, unmapAddr := str2addr a }
  | .mprotect a => ((subopts a).foldlM mprotSub ({ c with mprotProt := 0 }, false)).bind (mprotCheck page)
  | .symbols => .ok { c with symbols := true }
  | .threads => .ok { c with threads := true }
  | .fds => .ok { c with fds := true }
  | .auxv => .ok { c with auxv := true }
  | .status => .ok { c with status := true }
  | .output a => .ok { c with output := some a }
  | .dryRun => .ok { c with dryRun := true }
  | .force => .ok { c with force := true }
  | .other => .ok c
  | .stop n => .error n
  | .patch _ => .error 1
  | .unpatch => .error 1
  | .function _ => .error 1
  | .patchObj _ => .error 1

/-- What the checks ask of the system: `proc_pid_exist`, `fexist`, `fregular`, `fsize`,
the current directory of the process (`proc_pid_cwd`, src/ultask.c:556), and whether the
file is an ELF relocatable file (`ftype`). -/
structure Env where
  page : BitVec 64
  pidExists : BitVec 32 → Bool
  exist : List Byte → Bool
  regular : List Byte → Bool
  size : List Byte → BitVec 32
  cwd : List Byte
  relocatable : List Byte → Bool
  patchOk : List Byte → Bool

/-- The name of the file to map (src/ultask.c:543-567): names that do not begin with a
slash are those of files in the current directory of the process; `snprintf` keeps
`PATH_MAX - 1` bytes. -/
def realMap (e : Env) (f : List Byte) : List Byte :=
  if f.head? = some 47 then f else (e.cwd ++ [47] ++ f).take 4095

/-- The checks behind the loop (src/ultask.c:492-593). -/
def taskCheck (e : Env) (c : Cfg) : Except Int Cfg :=
  if c.pid = -1 then .error 1
  else if e.pidExists c.pid = false then .error 1
  else if (c.dumpVma || c.dumpVdso) && c.output.isNone then .error 1
  else if c.dumpMem && c.output.isNone then .error 1
  else
    let mapped : Except Int Cfg :=
      match c.mapFile with
      | none => .ok c
      | some f =>
        let real := realMap e f
        if e.exist real = false then .error 17
        else if e.regular real = false then .error 2
        else if e.size real = 0 then .error 22
        else .ok { c with mapFile := some real }
    mapped.bind fun c =>
      match c.output with
      | some o => if c.force = false ∧ e.exist o then .error 1 else .ok c
      | none => .ok c

/-- `parse_config` of ultask (src/ultask.c:249-594). -/
def taskParse (e : Env) (opts : List Opt) : Except Int Cfg :=
  (opts.foldlM (taskOpt e.page) {}).bind (taskCheck e)

/-- The things ultask does with the process it has opened. -/
inductive Act where
  | printTask
  | mprotect (addr len prot : BitVec 64)
  | map (file : List Byte) (addr : BitVec 64) (ro noexec : Bool)
  | unmap (addr : BitVec 64)
  | auxv | status | vmas
  | dumpVma (file : List Byte) (addr : BitVec 64)
  | dumpVdso (file : List Byte)
  | dumpMem (file : List Byte) (addr size : BitVec 64)
  | symbols | threads | fds
  | jmp (src dst : BitVec 64)
  | disasm (addr size : BitVec 64)
  deriving DecidableEq

def one (b : Bool) (a : Act) : List Act := if b then [a] else []

/-- `flag_print_task` stays set (src/ultask.c:507-531). -/
def idle (c : Cfg) : Bool :=
  !c.vmas && !c.dumpVma && !c.dumpVdso && !c.dumpMem && c.mapFile.isNone && c.mprotAddr = 0 &&
    (c.jmpFrom = 0 || c.jmpTo = 0) && !c.unmapIt && !c.symbols && !c.auxv && !c.status && !c.threads &&
    !c.disasm && !c.fds

/-- The body of `ultask` behind `open_task` (src/ultask.c:882-930), in order; `run_jmp`
and `run_disasm` do nothing if one of their addresses is 0 (src/ultask.c:775, 833).  The
output file is there for every dump: `taskCheck`. -/
def acts (c : Cfg) : List Act :=
  let out : List Byte := match c.output with | none => [] | some o => o
  one (idle c) .printTask ++
  one (c.mprotAddr ≠ 0) (.mprotect c.mprotAddr c.mprotLen c.mprotProt) ++
  (match c.mapFile with | none => [] | some f => [.map f c.mapAddr c.mapRo c.mapNoexec]) ++
  one c.unmapIt (.unmap c.unmapAddr) ++
  one c.auxv .auxv ++ one c.status .status ++ one c.vmas .vmas ++
  one c.dumpVma (.dumpVma out c.vmaAddr) ++
  one c.dumpVdso (.dumpVdso out) ++
  one c.dumpMem (.dumpMem out c.dumpAddr c.dumpSize) ++
  one c.symbols .symbols ++ one c.threads .threads ++ one c.fds .fds ++
  one (c.jmpFrom ≠ 0 ∧ c.jmpTo ≠ 0) (.jmp c.jmpFrom c.jmpTo) ++
  one (c.disasmAddr ≠ 0 ∧ c.disasmSize ≠ 0) (.disasm c.disasmAddr c.disasmSize)

/-- `FTO_RDWR` is among the flags of `open_task` (src/ultask.c:874-875). -/
def opensForWriting (c : Cfg) : Bool := !c.rdonly

/-- The results that `ultask` adds up (src/ultask.c:885-892). -/
def counted : Act → Bool
  | .mprotect _ _ _ => true
  | .map _ _ _ _ => true
  | .unmap _ => true
  | _ => false

/-- The value `ultask` returns (src/ultask.c:885-931), where `res` is what each of the
functions returns. -/
def taskStatus (res : Act → Int) (c : Cfg) : Int :=
  ((acts c).filter counted).foldl (fun r a => r + res a) 0

/-! ### ulpatch -/

/-- `enum command` with the file (src/ulpatch.c:25-34). -/
inductive PatchCmd where
  | none | patch | unpatch
  deriving DecidableEq

structure PatchCfg where
  pid : BitVec 32 := -1
  cmd : PatchCmd := .none
  file : Option (List Byte) := none
  dryRun : Bool := false
  deriving DecidableEq

/-- The body of the loop (src/ulpatch.c:103-123). -/
def patchOpt (c : PatchCfg) : Opt → Except Int PatchCfg
  | .pid a => .ok { c with pid := atoi a }
  | .patch a => .ok { c with cmd := .patch, file := some a }
  | .unpatch => .ok { c with cmd := .unpatch }
  | .dryRun => .ok { c with dryRun := true }
  | .force => .ok c
  | .other => .ok c
  | .stop n => .error n
  | _ => .error 1

/-- The checks behind it (src/ulpatch.c:126-151). -/
def patchCheck (e : Env) (c : PatchCfg) : Except Int PatchCfg :=
  if c.cmd = .none then .error 1
  else if c.pid = -1 then .error 1
  else if e.pidExists c.pid = false then .error 1
  else if c.cmd = .patch then
    match c.file with
    | none => .error 1
    | some f => if e.exist f ∧ e.patchOk f then .ok c else .error 1
  else .ok c

/-- `parse_config` of ulpatch (src/ulpatch.c:82-152); the command that is run on the
process (src/ulpatch.c:222-232). -/
def patchParse (e : Env) (opts : List Opt) : Except Int PatchCfg :=
  (opts.foldlM patchOpt {}).bind (patchCheck e)

/-! ### ulftrace -/

structure TraceCfg where
  pid : BitVec 32 := -1
  func : Option (List Byte) := none
  obj : Option (List Byte) := none
  dryRun : Bool := false
  deriving DecidableEq

/-- The body of the loop (src/ulftrace.c:95-111). -/
def traceOpt (c : TraceCfg) : Opt → Except Int TraceCfg
  | .pid a => .ok { c with pid := atoi a }
  | .function a => .ok { c with func := some a }
  | .patchObj a => .ok { c with obj := some a }
  | .dryRun => .ok { c with dryRun := true }
  | .force => .ok c
  | .other => .ok c
  | .stop n => .error n
  | _ => .error 2

/-- The object that is looked at (src/ulftrace.c:134-145). -/
def traceObj (dflt : List Byte) : Option (List Byte) → List Byte
  | none => dflt
  | some o => o

/-- The checks behind it (src/ulftrace.c:114-155). -/
def traceCheck (e : Env) (dflt : List Byte) (c : TraceCfg) : Except Int TraceCfg :=
  if c.pid = -1 then .error 1
  else if c.func = none then .error 1
  else if e.pidExists c.pid = false then .error 1
  else
    let obj := traceObj dflt c.obj
    if e.exist obj = false then .error 1
    else if e.relocatable obj = false then .error 1
    else .ok { c with obj := some obj }

def traceParse (e : Env) (dflt : List Byte) (opts : List Opt) : Except Int TraceCfg :=
  (opts.foldlM traceOpt {}).bind (traceCheck e dflt)

/-- The file that is loaded into the process (src/ulftrace.c:196). -/
def traceLoads (dflt : List Byte) (_ : TraceCfg) : List Byte := dflt

end Ulp.Cli
