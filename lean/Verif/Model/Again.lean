/-
A tool called several times in one program (src/cmds.h:24-35), the start of its work
(`ulpatch_init`, src/init.c:99-109, `elf_core_init`, src/elf/core.c:36-59) and what
`--info` says of the C library (src/version.c:65-142).

The variables of the tools are static: a call finds what the calls before it have left.
A call that ends in the loop over the options or in the checks behind it returns the number
(`cmd_exit` without `ULP_CMD_MAIN`, src/cmds.h:16-22).
-/
import Verif.Model.InfoCli
namespace Ulp.Cli
open Ulp.Load (lit)

/-- The variables that the tools have in common: `__verbose` (src/init.c:27), `log_level` and
`prefix_on` (src/utils/log.c:28-29) and `default_libc_object` (src/elf/core.c:33). -/
structure Shared where
  verbose : BitVec 32 := 0
  level : Int := 3
  prefixOn : Bool := false
  libc : Option (List Byte) := none
  deriving DecidableEq

/-- All variables that one tool looks at: the common ones, its copy of `log_level`
(src/args-common.c:10), and those of its own. -/
structure Vars (C : Type) where
  shared : Shared
  want : Int
  own : C

/-- An option.  `verbose`: `-v` with what `str2verbose` makes of its argument
(src/args-common.c:72-75); `level`: `--log-level` with a known level, `--log-debug`,
`--log-error` (src/args-common.c:79-92); `info`: `--info` (src/args-common.c:93-95); `own`:
the others (`Opt`). -/
inductive AOpt where
  | verbose (vs : BitVec 32)
  | level (l : Int)
  | info
  | own (o : Opt)
  deriving DecidableEq

/-- One of the tools: what its `*_args_reset` does, what an option does to its variables, and
the checks behind the loop, with what is done then. -/
structure Tool (C R : Type) where
  reset : C → C
  opt : C → Opt → Except Int C
  check : C → Except Int R

/-- How a call ends: it returns at once; it shows the C library and the verbosity and returns
0; the whole program exits with 1 in `ulpatch_init`; or it does its work, with these
settings. -/
inductive Outcome (R : Type) where
  | returns (n : Int)
  | shows (libc : Option (List Byte)) (verbose : BitVec 32)
  | exits
  | works (what : R) (level : Int) (verbose : BitVec 32) (prefixOn : Bool)
  deriving DecidableEq

/-- `COMMON_RESET_BEFORE_PARSE_ARGS` (src/args-common.c:107-112, 130-134): `log_level` becomes
`LOG_ERR`, `__verbose` 0.  `force` is with the variables of the tool. -/
def resetVars {C R : Type} (t : Tool C R) (v : Vars C) : Vars C :=
  ⟨{ v.shared with verbose := 0 }, 3, t.reset v.own⟩

/-- The loop over the options (src/ultask.c:271-489 and those of the other tools).  An option
that ends the call leaves the variables of the tool as they are; for `--dump`, `--jmp`,
`--map` and `--mprotect` this is a simplification. -/
def optLoop {C R : Type} (t : Tool C R) (v : Vars C) : List AOpt → Vars C × Option (Outcome R)
  | [] => (v, none)
  | .verbose n :: os => optLoop t { v with shared := { v.shared with verbose := n + 1, prefixOn := true } } os
  | .level l :: os => optLoop t { v with want := l } os
  | .info :: _ => (v, some (.shows v.shared.libc v.shared.verbose))
  | .own o :: os =>
    match t.opt v.own o with
    | .error n => (v, some (.returns n))
    | .ok c => optLoop t { v with own := c } os

/-- `possible_libc` (src/elf/core.c:15-26) for x86-64. -/
def possibleLibc : List (List Byte) :=
  [lit "/usr/lib64/libc.so.6", lit "/lib64/libc.so.6", lit "/lib/x86_64-linux-gnu/libc.so.6",
    lit "/lib/libc.so.6.1"]

/-- `elf_core_init` (src/elf/core.c:36-59): `default_libc_object` afterwards; the program
exits if it is NULL. -/
def elfCoreInit (exist : List Byte → Bool) (s : Shared) : Shared :=
  match possibleLibc.find? exist with
  | none => s
  | some p => { s with libc := some p }

/-- One call (src/ultask.c:856-876, src/ulpatch.c:203-220, src/ulftrace.c:160-182,
src/ulpinfo.c:194-222), up to what is done with the process or the file.  `env` is whether
`__env_init` goes on (`Ulp.Init.envInit`).  The check of `__check_and_exit`
(src/init.c:50-65) compares constants and is always passed: the jump has 16 bytes and so has
`orig_code`.  `init_syslog` is the system's log and not modelled. -/
def call {C R : Type} (t : Tool C R) (exist : List Byte → Bool) (env : Bool) (opts : List AOpt)
    (v : Vars C) : Vars C × Outcome R :=
  let l := optLoop t (resetVars t v) opts
  match l.2 with
  | some o => (l.1, o)
  | none =>
    match t.check l.1.own with
    | .error n => (l.1, .returns n)
    | .ok r =>
      let s := { l.1.shared with level := l.1.want }
      if env = false then ({ l.1 with shared := s }, .exits)
      else
        let s := elfCoreInit exist s
        if s.libc = none then ({ l.1 with shared := s }, .exits)
        else ({ l.1 with shared := s }, .works r s.level s.verbose s.prefixOn)

/-- `ultask_args_reset` (src/ultask.c:147-180) with `force` of `args_common_reset`
(src/args-common.c:111).  `__dry_run` is not reset. -/
def taskReset (c : Cfg) : Cfg :=
  { c with
    pid := -1, vmas := false, dumpVma := false, dumpVdso := false, dumpMem := false,
    unmapIt := false, mapFile := none, mapRo := false, mapNoexec := false, mapAddr := 0,
    unmapAddr := 0, mprotAddr := 0, mprotLen := 0, mprotProt := 7, vmaAddr := 0, dumpAddr := 0,
    dumpSize := 0, jmpFrom := 0, jmpTo := 0, symbols := false, threads := false, fds := false,
    auxv := false, status := false, disasm := false, disasmAddr := 0, disasmSize := 0,
    output := none, rdonly := true, force := false }

/-- ultask: the things it does with the process, whether it opens it for writing, and the
process. -/
def taskTool (e : Env) : Tool Cfg (BitVec 32 × Bool × List Act) where
  reset := taskReset
  opt := taskOpt e.page
  check := fun c => (taskCheck e c).map fun c => (c.pid, opensForWriting c, acts c)

/-- `ulpatch_args_reset` (src/ulpatch.c:47-52): `command_type` is not among the variables
reset. -/
def patchReset (c : PatchCfg) : PatchCfg := { c with pid := -1, file := none }

/-- What ulpatch does with the process (src/ulpatch.c:222-232). -/
inductive PatchAct where
  | patch (file : List Byte)
  | unpatch
  deriving DecidableEq

/-- The command that is run (src/ulpatch.c:222-232).  There is a file for `CMD_PATCH`:
`patchCheck`. -/
def patchAct (c : PatchCfg) : Option PatchAct :=
  match c.cmd with
  | .none => none
  | .unpatch => some .unpatch
  | .patch => c.file.map .patch

def patchTool (e : Env) : Tool PatchCfg (BitVec 32 × Option PatchAct) where
  reset := patchReset
  opt := patchOpt
  check := fun c => (patchCheck e c).map fun c => (c.pid, patchAct c)

/-- `ulftrace_args_reset` (src/ulftrace.c:41-47). -/
def traceReset (c : TraceCfg) : TraceCfg := { c with pid := -1, func := none, obj := none }

/-- ulftrace: the process and the function. -/
def traceTool (e : Env) (dflt : List Byte) : Tool TraceCfg (BitVec 32 × Option (List Byte)) where
  reset := traceReset
  opt := traceOpt
  check := fun c => (traceCheck e dflt c).map fun c => (c.pid, c.func)

/-- `ulpinfo_args_reset` (src/ulpinfo.c:31-35). -/
def infoReset (c : InfoCfg) : InfoCfg := { c with file := none, pid := 0 }

/-- ulpinfo: what is shown, or the number it returns.  This is decided behind
`ulpatch_init` (src/ulpinfo.c:212-222). -/
def infoTool (e : Env) : Tool InfoCfg (Except Int Shown) where
  reset := infoReset
  opt := infoOpt
  check := fun c => .ok (infoShow e c)

/-- A program that calls the tools: the common variables and those of each tool. -/
structure World where
  shared : Shared := {}
  task : Int × Cfg := (3, {})
  patch : Int × PatchCfg := (3, {})
  trace : Int × TraceCfg := (3, {})
  info : Int × InfoCfg := (3, {})

/-- A call of one of the tools with what the system is like then. -/
inductive Call where
  | task (e : Env) (env : Bool) (opts : List AOpt)
  | patch (e : Env) (env : Bool) (opts : List AOpt)
  | trace (e : Env) (dflt : List Byte) (env : Bool) (opts : List AOpt)
  | info (e : Env) (env : Bool) (opts : List AOpt)

/-- The calls `ultask(argc, argv)`, `ulpatch(argc, argv)`, `ulftrace(argc, argv)` and
`ulpinfo(argc, argv)` (src/cmds.h:32-35). -/
def World.callTask (e : Env) (env : Bool) (opts : List AOpt) (w : World) : Vars Cfg × Outcome (BitVec 32 × Bool × List Act) :=
  call (taskTool e) e.exist env opts ⟨w.shared, w.task.1, w.task.2⟩

def World.callPatch (e : Env) (env : Bool) (opts : List AOpt) (w : World) : Vars PatchCfg × Outcome (BitVec 32 × Option PatchAct) :=
  call (patchTool e) e.exist env opts ⟨w.shared, w.patch.1, w.patch.2⟩

def World.callTrace (e : Env) (dflt : List Byte) (env : Bool) (opts : List AOpt) (w : World) : Vars TraceCfg × Outcome (BitVec 32 × Option (List Byte)) :=
  call (traceTool e dflt) e.exist env opts ⟨w.shared, w.trace.1, w.trace.2⟩

def World.callInfo (e : Env) (env : Bool) (opts : List AOpt) (w : World) : Vars InfoCfg × Outcome (Except Int Shown) :=
  call (infoTool e) e.exist env opts ⟨w.shared, w.info.1, w.info.2⟩

/-- The variables after a call. -/
def World.step (w : World) : Call → World
  | .task e env opts => let v := (w.callTask e env opts).1; { w with shared := v.shared, task := (v.want, v.own) }
  | .patch e env opts => let v := (w.callPatch e env opts).1; { w with shared := v.shared, patch := (v.want, v.own) }
  | .trace e d env opts => let v := (w.callTrace e d env opts).1; { w with shared := v.shared, trace := (v.want, v.own) }
  | .info e env opts => let v := (w.callInfo e env opts).1; { w with shared := v.shared, info := (v.want, v.own) }

/-- The variables after a sequence of calls in a program. -/
def World.run (w : World) (h : List Call) : World := h.foldl World.step w

end Ulp.Cli
