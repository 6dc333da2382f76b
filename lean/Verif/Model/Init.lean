/-
What a program does when it starts and what is kept for its whole run: the size of a page,
the directory for the patched processes, and the current task (src/init.c,
src/task/current.c).
-/
import Verif.Model.Mem
namespace Ulp.Init

/-! ### The size of a page -/

/-- `__page_size` and `__page_shift` (src/init.c:29-30). -/
structure Pages where
  size : BitVec 32
  shift : BitVec 32

/-- Both are 0 at first (src/init.c:29-30). -/
def Pages.init : Pages := ⟨0, 0⟩

/-- `ulp_page_size` (src/init.c:32-37), where `getpagesize()` is `sys`. -/
def pageSize (sys : BitVec 32) (p : Pages) : Pages × BitVec 32 :=
  if p.size = 0 then (⟨sys, p.shift⟩, sys) else (p, p.size)

/-- The loop `for (tmp = 0; (0x1UL << tmp) != pgsz; tmp++)` (src/init.c:44) from `tmp` on.
The `int` is converted to `unsigned long`.  `none`: `tmp` is 64, for which the shift is
undefined. -/
def shiftLoop (pgsz : BitVec 32) (tmp : Nat) : Option Nat :=
  if tmp < 64 then
    if (1 : BitVec 64) <<< tmp ≠ pgsz.signExtend 64 then shiftLoop pgsz (tmp + 1) else some tmp
  else none
  termination_by 64 - tmp

/-- `ulp_page_shift` (src/init.c:39-48). -/
def pageShift (sys : BitVec 32) (p : Pages) : Option (Pages × BitVec 32) :=
  let r := pageSize sys p
  if r.1.shift = 0 then
    match shiftLoop r.2 0 with
    | none => none
    | some tmp => some (⟨r.1.size, BitVec.ofNat 32 tmp⟩, BitVec.ofNat 32 tmp)
  else some (r.1, r.1.shift)

/-! ### The directory for the patched processes -/

/-- What is at `ULP_PROC_ROOT_DIR`. `link` is a link that leads nowhere. -/
inductive Kind where
  | dir
  | file
  | link
  deriving DecidableEq

/-- Its kind, permissions and owner (the system, for src/init.c:80-93). -/
structure Node where
  kind : Kind
  mode : BitVec 12
  owner : Nat
  deriving DecidableEq

/-- The system as far as it matters here: whether `/tmp` is there and can be written, what is
at `ULP_PROC_ROOT_DIR`, and the user and the `umask` of the program (src/init.c:67-95). -/
structure Sys where
  tmp : Bool
  tmpWrite : Bool
  root : Option Node
  uid : Nat
  umask : BitVec 12

/-- `fexist(ULP_PROC_ROOT_DIR)` (src/init.c:80): `access` follows links. -/
def rootExists (s : Sys) : Bool :=
  match s.root with
  | none => false
  | some n => n.kind ≠ .link

/-- `MODE_0777` (src/utils/macros.h:119-121), `S_IRWXU | S_IRWXG | S_IRWXO`. -/
def MODE_0777 : BitVec 12 := 0o777

/-- `mkdirat(0, path, mode)` of an absolute path (the system, src/init.c:81): the permissions
in the `umask` are taken away. -/
def mkdirat (mode : BitVec 12) (s : Sys) : Sys × Int :=
  match s.root with
  | some _ => (s, -1)
  | none =>
    if s.tmpWrite then ({ s with root := some ⟨.dir, mode &&& ~~~s.umask, s.uid⟩ }, 0)
    else (s, -1)

/-- `chmod` (the system, src/init.c:87): the superuser and the owner may. -/
def chmod (mode : BitVec 12) (s : Sys) : Sys × Int :=
  match s.root with
  | none => (s, -1)
  | some n =>
    if s.uid = 0 ∨ s.uid = n.owner then ({ s with root := some { n with mode := mode } }, 0)
    else (s, -1)

/-- `__env_init` (src/init.c:67-95): the system afterwards, and whether the program goes on;
otherwise it exits with 1. -/
def envInit (s : Sys) : Sys × Bool :=
  if s.tmp = false then (s, false)
  else if rootExists s = false then
    let r := mkdirat MODE_0777 s
    (r.1, r.2 = 0)
  else
    let r := chmod MODE_0777 s
    (r.1, r.2 = 0)

/-! ### The current task -/

/-- `current_task` (src/task/current.c:27-32): NULL, `&fallback_task`, or a task that was
opened. -/
inductive Cur where
  | null
  | fallback
  | task (id : Nat)
  deriving DecidableEq

/-- The current task, the tasks that are open, and the number of the next. -/
structure Tasks where
  cur : Cur
  live : List Nat
  next : Nat

/-- `set_current_task` (src/task/current.c:34-40). -/
def setCurrent (t : Cur) (s : Tasks) : Tasks × Int :=
  if t = .null then (s, -22) else ({ s with cur := t }, 0)

/-- `reset_current_task` (src/task/current.c:42-45). -/
def resetCurrent (s : Tasks) : Tasks := { s with cur := .fallback }

/-- `get_current_task` (src/task/current.c:55-65). -/
def getCurrent (s : Tasks) : Cur := if s.cur = .null then .fallback else s.cur

/-- What programs do with tasks: `ulpatch_init` (src/init.c:101), `open_task` that succeeds,
fails before there is memory for the task, or fails after that (src/task/core.c:567, 571-575),
and `close_task` (src/task/core.c:630-679). -/
inductive Op where
  | init
  | opened
  | failedEarly
  | failedLate
  | close (id : Nat)

/-- One of them; closing a task that is not open is not done. -/
def step (s : Tasks) : Op → Tasks
  | .init => resetCurrent s
  | .opened => (setCurrent (.task s.next) { s with live := s.next :: s.live, next := s.next + 1 }).1
  | .failedEarly => s
  | .failedLate => resetCurrent { s with next := s.next + 1 }
  | .close id => if id ∈ s.live then resetCurrent { s with live := s.live.erase id } else s

/-- The start of the program (src/task/current.c:27). -/
def Tasks.start : Tasks := ⟨.null, [], 0⟩

end Ulp.Init
