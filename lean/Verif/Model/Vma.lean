/-
The known mappings of a process (src/task/vma.c).

A `struct vm_area_struct` is named by a pointer; its `node_rb` is the node of the
same name in the tree of `Verif.Model.RbTree`.  The list through `node_list` is
the sequence of its elements (the pointer level of lists is `Verif.Model.CList`).
Fields that play no part here (device, inode, offset, ELF data) are left out.
-/
import Verif.Model.RbTree
import Verif.Model.Mem
namespace Ulp.Vma
open Rb (St RbNode)

/-- `struct vm_area_struct` (src/task/vma.h:57-117) -/
structure Vma where
  start : BitVec 64
  stop : BitVec 64
  name : List Byte
  leader : Nat
  deriving DecidableEq

/-- `struct vm_area_root` (src/task/vma.h:119-135) and the structures it leads to.
`sibs l` is the list with the head `l->siblings`. -/
structure Vmas where
  rb : St
  info : Nat → Vma
  list : List Nat
  sibs : Nat → List Nat

/-- `init_vma_root` (src/task/vma.c:17-22) -/
def initVmas (info : Nat → Vma) : Vmas := ⟨⟨fun _ => none, 0⟩, info, [], fun _ => []⟩

/-- `MIN_ULP_START_VMA_ADDR` (src/task/patch.h:22) -/
def minUlpStart : BitVec 64 := 0x400000

/-- `alloc_vma` (src/task/vma.c:24-44) returning `p`, and the assignments of
`read_task_vmas` (src/task/vma.c:374-396): the node is all zero bytes. -/
def allocVma (s : Vmas) (p : Nat) (start stop : BitVec 64) (name : List Byte) : Vmas :=
  { s with
    rb := Rb.upd s.rb p ⟨0, false, 0, 0⟩
    info := fun x => if x = p then ⟨start, stop, name, p⟩ else s.info x
    sibs := fun x => if x = p then [] else s.sibs x }

/-- `__vma_rb_cmp` (src/task/vma.c:46-63) -/
def vmaCmp (vma new : Vma) : Int :=
  if new.stop ≤ vma.start then -1
  else if vma.start < new.stop ∧ vma.stop > new.start then 0
  else if vma.stop ≤ new.start then 1
  else 0

/-- The grouping in `insert_vma` (src/task/vma.c:68-72) -/
def joinGroup (s : Vmas) (vma prev : Nat) : Vmas :=
  if prev ≠ 0 ∧ (s.info prev).name = (s.info vma).name then
    { s with
      info := fun x => if x = vma then { s.info vma with leader := (s.info prev).leader } else s.info x
      sibs := fun x => if x = (s.info prev).leader then s.sibs x ++ [vma] else s.sibs x }
  else s

/-- `insert_vma` (src/task/vma.c:65-77): what `rb_insert_node` returns is not
looked at. -/
def insertVma (s : Vmas) (vma prev : Nat) : Option Vmas := do
  let s := joinGroup s vma prev
  let s := { s with list := s.list ++ [vma] }
  let r ← Rb.rbInsertNode s.rb vma fun n => vmaCmp (s.info n) (s.info vma)
  return { s with rb := r.1 }

/-- `unlink_vma` (src/task/vma.c:79-84) -/
def unlinkVma (s : Vmas) (vma : Nat) : Option Vmas := do
  let rb ← Rb.rbErase s.rb vma
  return { s with
    rb := rb
    list := s.list.filter (· ≠ vma)
    sibs := fun x => (s.sibs x).filter (· ≠ vma) }

/-- `__find_vma_cmp` (src/task/vma.c:94-106) -/
def findCmp (vma : Vma) (vaddr : BitVec 64) : Int :=
  if vma.start > vaddr then -1
  else if vma.start ≤ vaddr ∧ vma.stop > vaddr then 0
  else 1

/-- `find_vma` (src/task/vma.c:108-118); 0 is NULL. -/
def findVma (s : Vmas) (vaddr : BitVec 64) : Option Nat :=
  Rb.rbSearchNode s.rb fun n => findCmp (s.info n) vaddr

/-- `next_vma` (src/task/vma.c:120-126) -/
def nextVma (s : Vmas) (prev : Nat) : Option Nat :=
  if prev ≠ 0 then Rb.rbNext s.rb prev else Rb.rbFirst s.rb

/-- The loop of `find_vma_span_area` (src/task/vma.c:148-160) -/
def spanLoop (s : Vmas) (size : BitVec 64) (rnode : Nat) : Option (BitVec 64) := do
  if rnode = 0 then return 0
  else
    let next ← Rb.rbNext s.rb rnode
    if next = 0 then return 0
    else if (s.info next).start - (s.info rnode).stop ≥ size then return (s.info rnode).stop
    else
      let rnode ← Rb.rbNext s.rb rnode
      spanLoop s size rnode
  partial_fixpoint

/-- `find_vma_span_area` (src/task/vma.c:128-163).  With no mapping, `first_vma`
is no mapping either, and reading it is undefined. -/
def findVmaSpanArea (s : Vmas) (size base : BitVec 64) : Option (BitVec 64) := do
  let first ← Rb.rbFirst s.rb
  if base ≠ 0 ∧ base ≥ minUlpStart then
    if first = 0 then none
    else if (s.info first).start > base ∧ (s.info first).start - base ≥ size then return base
    else spanLoop s size first
  else spanLoop s size first

/-- One line of `/proc/PID/maps`. -/
structure Line where
  start : BitVec 64
  stop : BitVec 64
  name : List Byte
  deriving DecidableEq

/-- The loop of `read_task_vmas` (src/task/vma.c:335-400), over the parsed lines,
each with the pointer `malloc` returns if it is asked for one. -/
def readLines (update : Bool) : Vmas → List (Nat × Line) → Nat → Option Vmas
  | s, [], _ => some s
  | s, (p, e) :: rest, prev =>
    if update then
      (findVma s (e.start + 1)).bind fun old =>
        if old ≠ 0 ∧ (s.info old).start = e.start ∧ (s.info old).stop = e.stop then
          readLines update s rest prev
        else
          (insertVma (allocVma s p e.start e.stop e.name) p prev).bind fun s => readLines update s rest p
    else
      (insertVma (allocVma s p e.start e.stop e.name) p prev).bind fun s => readLines update s rest p

/-- `read_task_vmas` (src/task/vma.c:321-405) after the file was opened. -/
def readTaskVmas (s : Vmas) (update : Bool) (lines : List (Nat × Line)) : Option Vmas :=
  readLines update s lines 0

/-- The loop of `free_task_vmas` (src/task/vma.c:194-197): `list_for_each_entry_safe`
takes the next element before the body runs.  The structures freed. -/
def freeLoop : Vmas → List Nat → Option Vmas
  | s, [] => some s
  | s, vma :: rest =>
    (unlinkVma s vma).bind fun s =>
      (Rb.freeNode s.rb vma).bind fun rb => freeLoop { s with rb := rb } rest

/-- `free_task_vmas` (src/task/vma.c:190-205): all mappings are freed; then the
root and the list are set to empty. -/
def freeTaskVmas (s : Vmas) : Option Vmas :=
  (freeLoop s s.list).bind fun s => some { s with rb := { s.rb with root := 0 }, list := [] }

end Ulp.Vma
