/-
Ranges of addresses.
-/
namespace Ulp.Range

/-- `[lo, hi)` -/
structure Range where
  lo : Nat
  hi : Nat
  deriving DecidableEq

/-- The address is in the range. -/
def Range.Has (r : Range) (a : Nat) : Prop := r.lo ≤ a ∧ a < r.hi

/-- No address is in both. -/
def Apart (r q : Range) : Prop := ∀ a, ¬ (r.Has a ∧ q.Has a)

/-- Some address is in it. -/
def Nonempty (r : Range) : Prop := ∃ a, r.Has a

/-- What is known of a process: mappings, each with the range it covers. -/
abbrev Known := List (Nat × Range)

end Ulp.Range
