/-
Walking over a collection with a function that gives the next element.
-/
namespace Ulp.Walk

/-- Calling `next` with `p`, and again with each result, gives the elements of the list, one
after the other, and then none (0 is NULL). -/
def VisitsFrom (next : Nat → Option Nat) (p : Nat) : List Nat → Prop
  | [] => next p = some 0
  | x :: l => next p = some x ∧ x ≠ 0 ∧ VisitsFrom next x l

/-- A walk from the start. -/
def Visits (next : Nat → Option Nat) (l : List Nat) : Prop := VisitsFrom next 0 l

end Ulp.Walk
