/-
Reading `/proc/PID/auxv`, `/proc/PID/status` and `/proc/PID/comm`
(src/task/auxv.c, src/task/proc.c).
-/
import Verif.Model.MapsFile
import Verif.Model.Mem
namespace Ulp.Proc
open Ulp.MapsFile
open Ulp.Load (lit)

/-! ### The auxiliary vector -/

/-- Result of one `read(2)` of 16 bytes. -/
inductive Rd
  | bytes (b : List Byte)
  | error

/-- Successive reads of a file with these contents, without errors. -/
def fileReads (f : List Byte) (i : Nat) : Rd := .bytes ((f.drop (16 * i)).take 16)

/-- `struct task_auxv` (src/task/auxv.h:11-22) -/
structure Auxv where
  phdr : BitVec 64
  phent : BitVec 64
  phnum : BitVec 64
  interp : BitVec 64
  entry : BitVec 64
  deriving DecidableEq

/-- `switch (auxv.a_type)` (src/task/auxv.c:37-53) -/
def auxvSet (a : Auxv) (e : BitVec 64 × BitVec 64) : Auxv :=
  if e.1 = 3 then { a with phdr := e.2 }
  else if e.1 = 4 then { a with phent := e.2 }
  else if e.1 = 5 then { a with phnum := e.2 }
  else if e.1 = 7 then { a with interp := e.2 }
  else if e.1 = 9 then { a with entry := e.2 }
  else a

/-- `GElf_auxv_t` from 16 bytes. -/
def auxvEntry (b : List Byte) : BitVec 64 × BitVec 64 :=
  (BitVec.ofNat 64 (leNat (b.take 8)), BitVec.ofNat 64 (leNat ((b.drop 8).take 8)))

/-- `while (true)` (src/task/auxv.c:33-54), up to `fuel` reads; none when it has not
left the loop by then.  `n < sizeof(auxv)` compares as unsigned, so a failed read
(−1) is no reason to stop: the entry of the read before, at first what was on the
stack, is taken again. -/
def auxvLoop (rd : Nat → Rd) : Nat → Nat → BitVec 64 × BitVec 64 → Auxv → Option Auxv
  | 0, _, _, _ => none
  | fuel + 1, i, e, a =>
    match rd i with
    | .error => auxvLoop rd fuel (i + 1) e (auxvSet a e)
    | .bytes b =>
      if b.length < 16 then some a
      else auxvLoop rd fuel (i + 1) (auxvEntry b) (auxvSet a (auxvEntry b))

def ENOENT : Int := -2

/-- `load_task_auxv` (src/task/auxv.c:17-91).  `opened` is the result of `open`: an
error number, or the reads. -/
def loadTaskAuxv (fuel : Nat) (opened : Except Int (Nat → Rd)) (e0 : BitVec 64 × BitVec 64) :
    Option (Int × Auxv) :=
  match opened with
  | .error err => some (-err, ⟨0, 0, 0, 0, 0⟩)
  | .ok rd =>
    (auxvLoop rd fuel 0 e0 ⟨0, 0, 0, 0, 0⟩).map fun a =>
      if a.phdr = 0 then (ENOENT, a)
      else if a.phent = 0 then (ENOENT, a)
      else if a.phnum = 0 then (ENOENT, a)
      else if a.interp = 0 then (ENOENT, a)
      else if a.entry = 0 then (ENOENT, a)
      else (0, a)

/-! ### Users and groups -/

/-- `struct task_status` (src/task/proc.h:6-12) -/
structure Status where
  uid : BitVec 32
  euid : BitVec 32
  suid : BitVec 32
  fsuid : BitVec 32
  gid : BitVec 32
  egid : BitVec 32
  sgid : BitVec 32
  fsgid : BitVec 32
  deriving DecidableEq

/-- `"%s %d %d %d %d"` (src/task/proc.c:157,170) -/
def statusFmt : List Fmt :=
  [.word none, .space, .num 10, .space, .num 10, .space, .num 10, .space, .num 10]

/-- `%d` storing into an `unsigned int` as glibc does it: `strtol`, then the low 32
bits.  What was not converted keeps its value. -/
def toInt (old : BitVec 32) : Option Val → BitVec 32
  | some v => (toLong (some v)).truncate 32
  | none => old

/-- What is done with one line (src/task/proc.c:156-180).  `none`: the word is written
past the end of `label`.  `.error`: return `-errno`. -/
def statusLine (errno : Int) (ts : Status) (line : List Byte) : Option (Except Int Status) :=
  let v := sscanf statusFmt line
  if (lit "Uid:").isPrefixOf line then
    if (toWord v[0]?).length > 127 then none
    else if v.length = 0 then some (.error (-errno))
    else
      some (.ok { ts with uid := toInt ts.uid v[1]?, euid := toInt ts.euid v[2]?,
                          suid := toInt ts.suid v[3]?, fsuid := toInt ts.fsuid v[4]? })
  else if (lit "Gid:").isPrefixOf line then
    if (toWord v[0]?).length > 127 then none
    else if v.length = 0 then some (.error (-errno))
    else
      some (.ok { ts with gid := toInt ts.gid v[1]?, egid := toInt ts.egid v[2]?,
                          sgid := toInt ts.sgid v[3]?, fsgid := toInt ts.fsgid v[4]? })
  else some (.ok ts)

/-- The loop over the lines (src/task/proc.c:148-184), `char line[1024]`. -/
def statusLoop (errno : Int) (file : List Byte) (ts : Status) : Option (Except Int Status) :=
  match file with
  | [] => some (.ok ts)
  | c :: s =>
    match statusLine errno ts ((fgets 1023 (c :: s)).1.takeWhile (· ≠ 0)) with
    | none => none
    | some (.error e) => some (.error e)
    | some (.ok ts) => statusLoop errno (fgets 1023 (c :: s)).2 ts
  termination_by file.length
  decreasing_by exact fgets_lt 1022 c s

/-- `proc_get_pid_status` (src/task/proc.c:126-199); `st` is what `*status` held.
`opened` is none when `open` fails: then `fp` is NULL and `fclose(fp)` is undefined.
The case of a file descriptor 0 is left out. -/
def procGetPidStatus (errno : Int) (opened : Option (List Byte)) (st : Status) : Option (Int × Status) :=
  match opened with
  | none => none
  | some file =>
    (statusLoop errno file ⟨-1, -1, -1, -1, -1, -1, -1, -1⟩).map fun
      | .error e => (e, st)
      | .ok ts =>
        if ts.uid = -1 ∨ ts.euid = -1 ∨ ts.suid = -1 ∨ ts.fsuid = -1 ∨ ts.gid = -1 ∨ ts.egid = -1 ∨
            ts.sgid = -1 ∨ ts.fsgid = -1 then (ENOENT, st)
        else (0, ts)

/-! ### The name of the process -/

/-- `proc_pid_comm` (src/task/proc.c:101-124): `fscanf(fp, "%s", comm)` into 128 bytes.
`opened` is none when `fopen` fails: then `fscanf(NULL, ..)` is undefined.  `errno` is
what the variable holds when there is no word in the file. -/
def procPidComm (errno : Int) (opened : Option (List Byte)) (comm : List Byte) : Option (Int × List Byte) :=
  match opened with
  | none => none
  | some file =>
    match scanWord none file with
    | none => some (-errno, comm)
    | some q =>
      if (toWord (some q.1)).length > 127 then none
      else some (0, toWord (some q.1))

end Ulp.Proc
