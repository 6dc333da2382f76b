/-
Specification: program text under a stack of redirects.

Nothing here mentions the patching code.
-/
import Verif.Model.Mem
namespace Ulp

/-- Two memories agree on every address outside the area `R`. -/
def EqOff (R : Addr → Prop) (m m' : Mem) : Prop := ∀ x, ¬ R x → m x = m' x

/-- The `n` bytes at `a` lie outside the area `R`. -/
def WindowOff (R : Addr → Prop) (a : Addr) (n : Nat) : Prop :=
  ∀ i, i < n → ¬ R (a + BitVec.ofNat 64 i)

/-- One redirect: `bytes` written at `addr`. -/
structure Overlay where
  addr : Addr
  bytes : List Byte

/-- The text `base` with the redirects of the list applied one after the other,
first element first. -/
def overlayAll (base : Mem) (l : List Overlay) : Mem :=
  l.foldl (fun m o => m.write o.addr o.bytes) base

end Ulp
