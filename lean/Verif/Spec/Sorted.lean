/-
What a stable sort is.
-/
namespace Ulp.Sorted

/-- `x` and `c` are equal for the ordering. -/
def same (le : Nat → Nat → Bool) (c x : Nat) : Bool := le x c && le c x

/-- `ys` is `xs` stably sorted: the same elements, ascending, and for every
element those equal to it are in their original order. -/
structure StableSort (le : Nat → Nat → Bool) (xs ys : List Nat) : Prop where
  perm : ys.Perm xs
  ascending : ys.Pairwise fun a b => le a b = true
  stable : ∀ c, ys.filter (same le c) = xs.filter (same le c)

end Ulp.Sorted
