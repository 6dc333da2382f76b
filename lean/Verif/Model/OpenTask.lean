/-
Opening and closing a process: the order of the steps, what is given back when one
fails, and the error that is reported (src/task/core.c:452-576, 614-679).

The steps themselves are modelled elsewhere (`Proc`, `MapsFile`, `Vma`, `PeekElf`,
`Symbol`); here each is the answer it gives.  Loading the ELF headers, symbols, threads
and descriptors cannot make `open_task` fail and is left out.
-/
import Verif.Model.WorkDir
namespace Ulp.OpenTask
open Ulp.WorkDir (Dir Name Content openPid openMaps checkAndFree)

/-- src/task/flags.h:17-49 -/
def FTO_PROC : BitVec 32 := 0x1
def FTO_AUXV : BitVec 32 := 0x80
def FTO_STATUS : BitVec 32 := 0x100
def FTO_ALL : BitVec 32 := 0xffffffff

def has (flag m : BitVec 32) : Bool := flag &&& m ≠ 0

/-- What the steps of `open_task` answer, in their order. -/
structure Answers where
  /-- `/proc/PID` exists -/
  exist : Bool
  /-- `malloc` succeeds -/
  malloc : Bool
  /-- `load_task_auxv`: zero or a negative error -/
  auxv : Int
  /-- `proc_get_pid_status` -/
  status : Int
  /-- `proc_pid_comm` -/
  comm : Int
  /-- the executable is found -/
  exe : Bool
  /-- the descriptor of /proc/PID/mem, or a negative error -/
  mem : Int
  /-- `read_task_vmas` -/
  vmas : Int
  /-- the C library and the stack are found -/
  libc : Bool
  stack : Bool
  /-- making the directories works, or they are there -/
  mkdirPid : Bool
  /-- `comm` can be written -/
  fopenComm : Bool
  mkdirMaps : Bool

/-- The resources: open descriptors, allocated sessions, the directory of the process,
and `errno`. -/
structure Res where
  fds : List Int
  heap : Nat
  dir : Dir
  errno : Int

/-- `struct task_struct`: its flags, `proc_mem_fd`, and the patches in its mappings. -/
structure Session where
  flag : BitVec 32
  fd : Int
  known : List Name
  deriving DecidableEq

/-- `close_task` (src/task/core.c:630-679) of a session that is not null. -/
def closeTask (t : Session) (r : Res) : Res :=
  let r := if t.fd > 2 then { r with fds := r.fds.erase t.fd } else r
  let r := if has t.flag FTO_PROC then { r with dir := checkAndFree t.known r.dir } else r
  { r with heap := r.heap - 1 }

/-- `goto free_task` and `failed` (src/task/core.c:571-575). -/
def fail (t : Session) (err : Int) (r : Res) : Option (Option Session × Res) :=
  some (none, { closeTask t r with errno := -err })

/-- The part under `FTO_PROC` (src/task/core.c:533-561). -/
def makeDirs (a : Answers) (name : Content) (t : Session) (r : Res) : Option (Option Session × Res) :=
  if has t.flag FTO_PROC then
    if a.mkdirPid then
      if a.fopenComm then
        let r := { r with dir := openPid name r.dir }
        if a.mkdirMaps then some (some t, { r with dir := openMaps r.dir })
        else fail t 0 r
      else none
    else fail t 0 r
  else some (some t, r)

/-- `open_task` (src/task/core.c:452-576).  `live`: the patches mapped in the process,
`name`: its name.  `none`: a null pointer is used. -/
def openTask (a : Answers) (flag : BitVec 32) (live : List Name) (name : Content) (r : Res) :
    Option (Option Session × Res) :=
  if a.exist = false then some (none, { r with errno := 2 })
  else if a.malloc = false then some (none, { r with errno := 0 })
  else
    let r := { r with heap := r.heap + 1 }
    let t : Session := ⟨flag, 0, []⟩
    if has flag FTO_AUXV ∧ a.auxv ≠ 0 then fail t a.auxv r
    else if has flag FTO_STATUS ∧ a.status ≠ 0 then fail t a.status r
    else if a.comm ≠ 0 then fail t a.comm r
    else if a.exe = false then fail t 0 r
    else
      let t : Session := { t with fd := a.mem }
      let r := if a.mem ≥ 0 then { r with fds := a.mem :: r.fds } else r
      if a.mem ≤ 0 then fail t 0 r
      else if a.vmas ≠ 0 then fail t a.vmas r
      else
        let t : Session := { t with known := live }
        if a.libc = false ∨ a.stack = false then fail t 0 r
        else makeDirs a name t r

end Ulp.OpenTask
