/-
Callback chains (src/utils/callback.c) on top of the pointer-level lists.
-/
import Verif.Model.CList
namespace Ulp.Callback
open Ulp.CList

/-- `cb` and `cb_arg` of a `struct callback` (src/utils/callback.c:10-16); the
list node of the struct is in the heap, under the same pointer. -/
structure Entry where
  cb : Nat
  arg : Nat
  deriving DecidableEq, Repr

structure State where
  heap : Heap
  entry : Nat → Option Entry

/-- `malloc(sizeof(struct callback))`: `new` is 0 if it fails; otherwise the
memory there holds the arbitrary contents `g`, `e`. -/
def malloc (s : State) (new : Nat) (g : Node) (e : Entry) : State :=
  { heap := fun x => if x = new then some g else s.heap x
    entry := fun x => if x = new then some e else s.entry x }

/-- `free(p)`; freeing what is not allocated is undefined. -/
def free (s : State) (p : Nat) : Option State :=
  match s.heap p, s.entry p with
  | some _, some _ =>
    some { heap := fun x => if x = p then none else s.heap x
           entry := fun x => if x = p then none else s.entry x }
  | _, _ => none

/-- `insert_callback` (src/utils/callback.c:19-35); `new`, `g` and `e` say what
`malloc` does. -/
def insertCallback (s : State) (chain cb arg : Nat) (new : Nat) (g : Node) (e : Entry) :
    Option (State × Int) := do
  if chain = 0 ∨ cb = 0 then return (s, -2)
  else if new = 0 then return (s, -12)
  else
    let s := malloc s new g e
    let s := { s with entry := fun x => if x = new then some ⟨cb, arg⟩ else s.entry x }
    let h ← listAdd s.heap new chain
    return ({ s with heap := h }, 0)

/-- The loop of `callback_launch_chain` (src/utils/callback.c:41-42), expanded
from `list_for_each_entry_safe`: the calls made.  The callbacks themselves are
not modelled; they must leave the chain alone. -/
def launchLoop (s : State) (head pos n : Nat) (log : List Entry) : Option (List Entry) := do
  if pos = head then return log
  else
    let e ← s.entry pos
    let n' ← next s.heap n
    launchLoop s head n n' (log ++ [e])
  partial_fixpoint

/-- `callback_launch_chain` (src/utils/callback.c:37-43) -/
def callbackLaunchChain (s : State) (chain : Nat) : Option (List Entry) := do
  let pos ← next s.heap chain
  let n ← next s.heap pos
  launchLoop s chain pos n []

/-- The loop of `destroy_callback_chain` (src/utils/callback.c:49-52): the state
and the pointers freed. -/
def destroyLoop (s : State) (head pos n : Nat) (log : List Nat) : Option (State × List Nat) := do
  if pos = head then return (s, log)
  else
    let h ← listDel s.heap pos
    let s ← free { s with heap := h } pos
    let n' ← next s.heap n
    destroyLoop s head n n' (log ++ [pos])
  partial_fixpoint

/-- `destroy_callback_chain` (src/utils/callback.c:45-54) -/
def destroyCallbackChain (s : State) (chain : Nat) : Option (State × List Nat) := do
  let pos ← next s.heap chain
  let n ← next s.heap pos
  destroyLoop s chain pos n []

end Ulp.Callback
