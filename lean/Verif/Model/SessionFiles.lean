/-
The ELF headers and files of the mappings of a process, when it is opened and when it is closed
(src/task/core.c:377-420, 518-531, 641-655), and the general information that ultask prints
(src/task/core.c:422-444, src/task/proc.c:201-213).
-/
import Verif.Model.PeekElf
import Verif.Model.Listing
import Verif.Model.TaskList
namespace Ulp.SessionFiles
open Ulp.Load (lit)
open Ulp.Peek (Area Rd peekElfHdrs vmaFreeElf)
open Ulp.Listing (leftCol lx)

/-- src/task/flags.h:21-29 -/
def FTO_VMA_ELF : BitVec 32 := 0x2
def FTO_VMA_ELF_FILE : BitVec 32 := 0x4 ||| FTO_VMA_ELF
def FTO_VMA_ELF_SYMBOLS : BitVec 32 := 0x8 ||| FTO_VMA_ELF ||| FTO_VMA_ELF_FILE

def has (flag m : BitVec 32) : Bool := flag &&& m ≠ 0

/-- A mapping with `vma->bfd_elf_file`, a number for the handle. -/
structure Vma where
  area : Area
  bfd : Option Nat

/-- What the world answers for the mapping at position `i` of the list: `vma_load_ulp` for a patch
(its value, and whether it marks the mapping as an ELF file), `malloc`, whether `bfd_elf_open`
succeeds; and whether a file exists. -/
structure Env where
  shift : Nat
  rd : BitVec 64 → Nat → Rd
  malloc1 : Nat → Bool
  malloc2 : Nat → Bool
  ulp : Nat → Int
  ulpElf : Nat → Bool
  fexist : List Byte → Bool
  bfdOpen : Nat → Bool

/-- The open files, and what was stored in the task: `is_pie`, `exe_bfd`, `libc_bfd`. -/
structure St where
  files : List Nat
  pie : Bool
  exe : Option Nat
  libc : Option Nat
  deriving DecidableEq

/-- `vma_load_elf_file` (src/task/core.c:377-409); the handle of the file opened for mapping `i`
is `i`. -/
def loadElfFile (flag : BitVec 32) (e : Env) (i : Nat) (v : Vma) (s : St) : Int × Vma × St :=
  if v.area.isElf = false then (-22, v, s)
  else if has flag FTO_VMA_ELF_FILE && e.fexist v.area.name then
    if e.bfdOpen i = false then (-22, { v with bfd := none }, s)
    else
      let s := { s with files := i :: s.files }
      let s := match v.area.type with
        | .self => { s with exe := some i }
        | .libc => { s with libc := some i }
        | _ => s
      (0, { v with bfd := some i }, s)
  else (0, v, s)

/-- The kind of the executable, where reading a mapping tells it (src/task/core.c:189-202). -/
def setPie (self : Option Bool) (s : St) : St :=
  match self with
  | some b => { s with pie := b }
  | none => s

/-- The body of the loop at src/task/core.c:519-523.  What reading the headers stores in the other
mappings of the same file (`voffset`, the matching header) plays no part here and is left out.
`none`: undefined behaviour. -/
def loadOne (flag : BitVec 32) (e : Env) (i : Nat) (v : Vma) (s : St) : Option (Vma × St) :=
  match peekElfHdrs e.shift e.rd (e.malloc1 i) (e.malloc2 i) (e.ulp i) v.area [] with
  | none => none
  | some r =>
    let a := if v.area.type = .ulpatch then { r.vma with isElf := v.area.isElf || e.ulpElf i } else r.vma
    if a.isElf then some (loadElfFile flag e i { v with area := a } (setPie r.self s)).2
    else some ({ v with area := a }, setPie r.self s)

/-- src/task/core.c:519-523: from position `i` on. -/
def loadLoop (flag : BitVec 32) (e : Env) : Nat → List Vma → St → Option (List Vma × St)
  | _, [], s => some ([], s)
  | i, v :: vs, s =>
    match loadOne flag e i v s with
    | none => none
    | some (v', s') =>
      match loadLoop flag e (i + 1) vs s' with
      | none => none
      | some (vs', s'') => some (v' :: vs', s'')

/-- src/task/core.c:518-524 -/
def openFiles (flag : BitVec 32) (e : Env) (vs : List Vma) (s : St) : Option (List Vma × St) :=
  if has flag FTO_VMA_ELF then loadLoop flag e 0 vs s else some (vs, s)

/-- Are symbols loaded (src/task/core.c:526)? -/
def loadsSyms (flag : BitVec 32) : Bool := has flag FTO_VMA_ELF_SYMBOLS

/-- src/task/core.c:642-645; `none` if a null or freed pointer is used. -/
def freeLoop : List Vma → Option (List Vma)
  | [] => some []
  | v :: vs =>
    match vmaFreeElf v.area with
    | none => none
    | some a =>
      match freeLoop vs with
      | none => none
      | some vs' => some ({ v with area := a } :: vs')

/-- `bfd_elf_close` (src/elf/symbol-bfd.c:464-502) of `vma->bfd_elf_file`, as far as the file is
concerned; `none` if it is not open. -/
def closeOne (v : Vma) (files : List Nat) : Option (List Nat) :=
  if v.area.isElf then
    match v.bfd with
    | none => some files
    | some h => if h ∈ files then some (files.erase h) else none
  else some files

/-- src/task/core.c:647-652 -/
def closeLoop : List Vma → List Nat → Option (List Nat)
  | [], files => some files
  | v :: vs, files =>
    match closeOne v files with
    | none => none
    | some files' => closeLoop vs files'

/-- src/task/core.c:642-652: the mappings and the open files after it. -/
def closeFiles (flag : BitVec 32) (vs : List Vma) (files : List Nat) : Option (List Vma × List Nat) :=
  match (if has flag FTO_VMA_ELF then freeLoop vs else some vs) with
  | none => none
  | some vs' =>
    match (if has flag FTO_VMA_ELF_FILE then closeLoop vs' files else some files) with
    | none => none
    | some files' => some (vs', files')

/-! ### What ultask prints of a process -/

/-- What `print_task` reads of `struct task_struct`. -/
structure Task where
  comm : List Byte
  exe : List Byte
  pid : BitVec 32
  pie : Bool
  maxId : BitVec 32
  fto : BitVec 32
  memFd : BitVec 32

/-- `%d` -/
def fmtD (n : BitVec 32) : List Byte := TaskList.fmtInt n

/-- `print_task` (src/task/core.c:422-444) -/
def printTask (t : Option Task) (detail : Bool) : Int × List Byte :=
  match t with
  | none => (-22, [])
  | some t =>
    let head :=
      lit "Command: " ++ leftCol 32 t.comm ++ lit "\n" ++
      lit "Exe:     " ++ leftCol 32 t.exe ++ lit "\n" ++
      lit "Pid:     " ++ leftCol 32 (fmtD t.pid) ++ lit "\n" ++
      lit "PIE:     " ++ leftCol 32 (if t.pie then lit "YES" else lit "NO") ++ lit "\n" ++
      (if t.maxId ≠ 0 then lit "Patched: YES (num " ++ fmtD t.maxId ++ lit ")\n" else [])
    if detail = false then (0, head)
    else (0, head ++ lit "FTO:     " ++ leftCol 32 (lx t.fto.toNat) ++ lit "\n" ++
      lit "MemFD:   " ++ leftCol 32 (fmtD t.memFd) ++ lit "\n")

/-- `struct task_status` (src/task/proc.h): real, effective, saved and file system identity. -/
structure Ids where
  r : BitVec 32
  e : BitVec 32
  s : BitVec 32
  f : BitVec 32

/-- A line of `print_task_status` (src/task/proc.c:208-211) -/
def idLine (key : List Byte) (i : Ids) : List Byte :=
  key ++ lit ":\t" ++ fmtD i.r ++ lit "\t" ++ fmtD i.e ++ lit "\t" ++ fmtD i.s ++ lit "\t" ++ fmtD i.f ++ lit "\n"

/-- `print_task_status` (src/task/proc.c:201-213) -/
def printStatus (u g : Ids) : List Byte := idLine (lit "Uid") u ++ idLine (lit "Gid") g

end Ulp.SessionFiles
