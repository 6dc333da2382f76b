/-
What a user of the trees of src/utils/rbtree.h does, and what they expect: a
dictionary.
-/
namespace Ulp.Dict

/-- A comparison of keys, as a C function returning a negative, zero or positive
`int`, that orders the keys. -/
structure Ordered {κ : Type} (cmp : κ → κ → Int) : Prop where
  eq : ∀ a b, cmp a b = 0 ↔ a = b
  swap : ∀ a b, cmp a b < 0 ↔ cmp b a > 0
  trans : ∀ a b c, cmp a b < 0 → cmp b c < 0 → cmp a c < 0

/-- One thing a user does: get a node from `malloc`, give one to `free`, insert a
node with a key, remove a node, put a node in the place of another, look a key up. -/
inductive Op (κ : Type) where
  | alloc (n : Nat)
  | free (n : Nat)
  | insert (n : Nat) (k : κ)
  | remove (n : Nat)
  | replace (n m : Nat)
  | find (k : κ)

/-- Which nodes are allocated, and which node each key leads to (0: none). -/
structure Abs (κ : Type) where
  live : Nat → Bool
  dict : κ → Nat

def Abs.empty (κ : Type) : Abs κ := ⟨fun _ => false, fun _ => 0⟩

/-- What each operation should do and return. -/
def specStep {κ : Type} [DecidableEq κ] (a : Abs κ) : Op κ → Abs κ × Nat
  | .alloc n => ({ a with live := fun x => if x = n then true else a.live x }, 0)
  | .free n => ({ a with live := fun x => if x = n then false else a.live x }, 0)
  | .insert n k =>
    if a.dict k = 0 then ({ a with dict := fun x => if x = k then n else a.dict x }, 0)
    else (a, a.dict k)
  | .remove n => ({ a with dict := fun x => if a.dict x = n then 0 else a.dict x }, 0)
  | .replace n m => ({ a with dict := fun x => if a.dict x = n then m else a.dict x }, 0)
  | .find k => (a, a.dict k)

/-- When an operation may be used: `malloc` returns a node that is not in use; a
node that is freed or inserted is allocated and not in the tree; a node that is
removed is in the tree; a node that is put in the place of one in the tree is
allocated and not in the tree. -/
def OK {κ : Type} (a : Abs κ) : Op κ → Prop
  | .alloc n => n ≠ 0 ∧ a.live n = false
  | .free n => a.live n = true ∧ ∀ k, a.dict k ≠ n
  | .insert n _ => a.live n = true ∧ ∀ k, a.dict k ≠ n
  | .remove n => n ≠ 0 ∧ ∃ k, a.dict k = n
  | .replace n m => (n ≠ 0 ∧ ∃ k, a.dict k = n) ∧ a.live m = true ∧ ∀ k, a.dict k ≠ m
  | .find _ => True

/-- A sequence of operations: the end and all results. -/
def specRun {κ : Type} [DecidableEq κ] : Abs κ → List (Op κ) → Abs κ × List Nat
  | a, [] => (a, [])
  | a, o :: os => ((specRun (specStep a o).1 os).1, (specStep a o).2 :: (specRun (specStep a o).1 os).2)

def AllOK {κ : Type} [DecidableEq κ] : Abs κ → List (Op κ) → Prop
  | _, [] => True
  | a, o :: os => OK a o ∧ AllOK (specStep a o).1 os

end Ulp.Dict
