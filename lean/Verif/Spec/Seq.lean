/-
What it means for a heap to hold a list.
-/
import Verif.Model.CList
namespace Ulp.CList

/-- Neighbours in `l` point at each other, forwards and backwards. -/
def Linked (h : Heap) : List Nat → Prop
  | a :: b :: r => next h a = some b ∧ prev h b = some a ∧ Linked h (b :: r)
  | _ => True

/-- The nodes `c` are distinct and form a ring: each is linked with the
following one and the last with the first. -/
def Ring (h : Heap) (c : List Nat) : Prop :=
  c.Nodup ∧ ∃ x r, c = x :: r ∧ Linked h (c ++ [x])

/-- The list with head `head` has the elements `xs`, in this order. -/
def IsList (h : Heap) (head : Nat) (xs : List Nat) : Prop := Ring h (head :: xs)

/-- The heaps agree except possibly on `l`. -/
def SameOutside (h h' : Heap) (l : List Nat) : Prop := ∀ x, x ∉ l → h' x = h x

end Ulp.CList
