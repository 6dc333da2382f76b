/-
The symbols of a process (src/task/symbol.c).

A `struct task_sym` is named by a pointer.  It is a node of up to two trees, one
by name and one by address; its nodes there have the same name as the structure
(`Verif.Model.RbTree`).  Symbols that compare equal to one in a tree hang on the
list of that one; the list is the sequence of its elements (`Verif.Model.CList`
is the pointer level).  `name` and `addr` do not change after the structure is
made.  The reference count is a `size_t`; each unit of it is a place of the
symbol in an index, so it does not overflow.
-/
import Verif.Model.RbTree
import Verif.Model.Mem
namespace Ulp.Sym
open Rb (St RbNode)

/-- `strcmp` on strings without NUL: bytes are compared as unsigned. -/
def strcmp : List Byte → List Byte → Int
  | [], [] => 0
  | [], _ :: _ => -1
  | _ :: _, [] => 1
  | a :: s, b :: t => if a = b then strcmp s t else if a < b then -1 else 1

/-- The public part of `struct task_sym` (src/task/symbol.h:24-28) -/
structure Info where
  name : List Byte
  addr : BitVec 64
  deriving DecidableEq

/-- The two trees of `struct task_syms` (src/task/symbol.h:76-85) -/
inductive Which where
  | name
  | addr
  deriving DecidableEq

/-- A tree, with the `is_head` flags and lists of its symbols
(src/task/symbol.h:34-73: `sort_by_name` and `list_name`, or `sort_by_addr` and
`list_addr`). -/
structure Index where
  t : St
  isHead : Nat → Bool
  lists : Nat → List Nat

/-- `struct task_syms` and the symbols it leads to.  `rc p` is the `refcount` of
the structure at `p`, if it is allocated. -/
structure Syms where
  names : Index
  addrs : Index
  info : Nat → Info
  rc : Nat → Option Nat

def Syms.ix (s : Syms) : Which → Index
  | .name => s.names
  | .addr => s.addrs

def Syms.setIx (s : Syms) (w : Which) (i : Index) : Syms :=
  match w with
  | .name => { s with names := i }
  | .addr => { s with addrs := i }

/-- `task_syms_init` (src/task/symbol.h:87-90) -/
def initSyms (info : Nat → Info) : Syms :=
  ⟨⟨⟨fun _ => none, 0⟩, fun _ => false, fun _ => []⟩, ⟨⟨fun _ => none, 0⟩, fun _ => false, fun _ => []⟩, info,
    fun _ => none⟩

/-- A structure of zero bytes, then `list_init` (src/task/symbol.c:79, 87-90) -/
def Index.alloc (i : Index) (p : Nat) : Index :=
  ⟨Rb.upd i.t p ⟨0, false, 0, 0⟩, fun x => if x = p then false else i.isHead x,
    fun x => if x = p then [] else i.lists x⟩

/-- `alloc_task_sym` (src/task/symbol.c:74-93) returning `p` -/
def allocTaskSym (s : Syms) (p : Nat) (name : List Byte) (addr : BitVec 64) : Syms :=
  ⟨s.names.alloc p, s.addrs.alloc p, fun x => if x = p then ⟨name, addr⟩ else s.info x,
    fun x => if x = p then some 0 else s.rc x⟩

/-- `__cmp_task_sym` (src/task/symbol.c:24-29) -/
def cmpName (s : Syms) (key : List Byte) (n : Nat) : Int := strcmp (s.info n).name key

/-- `__cmp_task_addr` (src/task/symbol.c:31-36): the difference of two
`unsigned long` is returned as `int`. -/
def cmpAddr (s : Syms) (key : BitVec 64) (n : Nat) : Int := (((s.info n).addr - key).truncate 32).toInt

/-- `p->refcount++` -/
def incRc (s : Syms) (p : Nat) : Option Syms :=
  (s.rc p).bind fun c => some { s with rc := fun x => if x = p then some (c + 1) else s.rc x }

/-- The body of `__link_task_sym_name` (src/task/symbol.c:166-215) and of
`__link_task_sym_addr` (218-263), which differ in the tree, the comparison and
what makes a symbol a duplicate (`same`).  True if inserted. -/
def linkIn (w : Which) (s : Syms) (new : Nat) (cmp : Nat → Int) (same : Nat → Bool) : Option (Syms × Bool) :=
  (Rb.rbInsertNode (s.ix w).t new cmp).bind fun r =>
    let s := s.setIx w { s.ix w with t := r.1 }
    if r.2 = 0 then
      let s := s.setIx w { s.ix w with isHead := fun x => if x = new then true else (s.ix w).isHead x }
      (incRc s new).bind fun s => some (s, true)
    else if same r.2 then some (s, false)
    else if ((s.ix w).lists r.2).any same then some (s, false)
    else
      let s := s.setIx w
        { s.ix w with lists := fun x => if x = r.2 then (s.ix w).lists x ++ [new] else (s.ix w).lists x }
      (incRc s new).bind fun s => (incRc s r.2).bind fun s => some (s, true)

/-- `__link_task_sym_name` (src/task/symbol.c:166-215) -/
def linkName (s : Syms) (new : Nat) : Option (Syms × Bool) :=
  linkIn .name s new (cmpName s (s.info new).name) fun q => (s.info q).addr = (s.info new).addr

/-- `__link_task_sym_addr` (src/task/symbol.c:218-263) -/
def linkAddr (s : Syms) (new : Nat) : Option (Syms × Bool) :=
  linkIn .addr s new (cmpAddr s (s.info new).addr) fun q => (s.info q).name = (s.info new).name

/-- `link_task_sym` (src/task/symbol.c:265-270) -/
def linkTaskSym (s : Syms) (new : Nat) : Option Syms :=
  (linkName s new).bind fun r => (linkAddr r.1 new).bind fun r => some r.1

/-- `find_task_sym` (src/task/symbol.c:114-151): the symbol (0 is NULL) and the
extras. -/
def findTaskSym (s : Syms) (name : List Byte) : Option (Nat × List Nat) :=
  (Rb.rbSearchNode s.names.t (cmpName s name)).bind fun r =>
    if r = 0 then some (0, []) else some (r, s.names.lists r)

/-- `find_task_addr` (src/task/symbol.c:153-163) -/
def findTaskAddr (s : Syms) (addr : BitVec 64) : Option Nat := Rb.rbSearchNode s.addrs.t (cmpAddr s addr)

/-- `--refcount` of a `size_t` -/
def decr (c : Nat) : Nat := if c = 0 then 2 ^ 64 - 1 else c - 1

/-- The tree nodes inside a freed structure are gone. -/
def Index.drop (i : Index) (p : Nat) : Index :=
  { i with t := { i.t with m := fun x => if x = p then none else i.t.m x } }

/-- `free_task_sym` (src/task/symbol.c:95-101); with a structure that is not
allocated it is undefined. -/
def freeTaskSym (s : Syms) (p : Nat) : Option Syms :=
  (s.rc p).bind fun c =>
    if decr c = 0 then
      some { s with
        names := s.names.drop p, addrs := s.addrs.drop p, rc := fun x => if x = p then none else s.rc x }
    else some { s with rc := fun x => if x = p then some (decr c) else s.rc x }

/-- `s->refcount--` (src/task/symbol.c:47, 65) -/
def decRc (s : Syms) (p : Nat) : Option Syms :=
  (s.rc p).bind fun c => some { s with rc := fun x => if x = p then some (decr c) else s.rc x }

/-- The loop over the list of `p` in the two callbacks (src/task/symbol.c:44-49 and
62-67).  `list_del` writes to the neighbours in the list: here all that are still
on it have to be allocated, and `p`, which has the head of the list. -/
def freeExtras (w : Which) (s : Syms) (p : Nat) : List Nat → Option Syms
  | [] => some s
  | q :: rest =>
    if (p :: q :: rest).all fun x => (s.rc x).isSome then
      (decRc (s.setIx w { s.ix w with lists := fun x => if x = p then rest else (s.ix w).lists x }) p).bind fun s =>
        (freeTaskSym s q).bind fun s => freeExtras w s p rest
    else none

/-- `__rb_free_task_sym_name` (src/task/symbol.c:38-54) and
`__rb_free_task_sym_addr` (56-72).  The `list_del` of `p` itself is of an empty
list. -/
def freeCb (w : Which) (s : Syms) (p : Nat) : Option Syms :=
  if (s.ix w).isHead p then (freeExtras w s p ((s.ix w).lists p)).bind fun s => freeTaskSym s p
  else freeTaskSym s p

/-- `rb_destroy` of one of the trees. -/
def freeIndex (w : Which) (s : Syms) : Option Syms :=
  Rb.rbDestroyWith (fun s => (s.ix w).t) (fun s t => s.setIx w { s.ix w with t := t }) (freeCb w) s

/-- `free_task_syms` (src/task/symbol.c:345-349) -/
def freeTaskSyms (s : Syms) : Option Syms := (freeIndex .name s).bind (freeIndex .addr)

/-- `next_task_sym` (src/task/symbol.c:272-279) -/
def nextTaskSym (s : Syms) (prev : Nat) : Option Nat :=
  if prev ≠ 0 then Rb.rbNext s.names.t prev else Rb.rbFirst s.names.t

/-- `next_task_addr` (src/task/symbol.c:281-288) -/
def nextTaskAddr (s : Syms) (prev : Nat) : Option Nat :=
  if prev ≠ 0 then Rb.rbNext s.addrs.t prev else Rb.rbFirst s.addrs.t

end Ulp.Sym
