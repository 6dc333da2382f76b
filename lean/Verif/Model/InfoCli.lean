/-
The command line of ulpinfo (src/ulpinfo.c:26-92, 194-223), in the terms of
`Verif.Model.Cli`.
-/
import Verif.Model.Cli
namespace Ulp.Cli

/-- The variables with the values of `ulpinfo_args_reset` (src/ulpinfo.c:26-33). -/
structure InfoCfg where
  file : Option (List Byte) := none
  pid : BitVec 32 := 0
  deriving DecidableEq

/-- The body of the loop of `parse_config` (src/ulpinfo.c:72-86).  `-i` is also called
`--patch`; dry run and force change nothing that is looked at. -/
def infoOpt (c : InfoCfg) : Opt → Except Int InfoCfg
  | .patch a => .ok { c with file := some a }
  | .pid a => .ok { c with pid := atoi a }
  | .dryRun => .ok c
  | .force => .ok c
  | .other => .ok c
  | .stop n => .error n
  | _ => .error 1

/-- What is shown: `show_file_patch_info` or `show_task_patch_info`. -/
inductive Shown where
  | file (f : List Byte)
  | task (pid : BitVec 32)
  deriving DecidableEq

/-- `ulpinfo` behind `parse_config` (src/ulpinfo.c:212-222), with the first check of
`show_file_patch_info` (src/ulpinfo.c:99-106). -/
def infoShow (e : Env) (c : InfoCfg) : Except Int Shown :=
  if c.file = none ∧ c.pid = 0 then .error (-22)
  else
    match c.file with
    | some f => if e.exist f = false then .error 1 else .ok (.file f)
    | none => .ok (.task c.pid)

/-- `ulpinfo` (src/ulpinfo.c:194-223) up to the call of the function that shows something. -/
def infoRun (e : Env) (opts : List Opt) : Except Int Shown :=
  (opts.foldlM infoOpt {}).bind (infoShow e)

end Ulp.Cli
