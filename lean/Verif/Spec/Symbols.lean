/-
What looking up a symbol means, over the sequence of symbols registered.
-/
import Verif.Model.Mem
namespace Ulp.SymSpec

/-- The first element of each key, in order. -/
def firstOfEach {α κ : Type} [DecidableEq κ] (key : α → κ) : List α → List α
  | [] => []
  | x :: l => x :: (firstOfEach key l).filter fun y => key y ≠ key x

/-- A registered symbol: its identity, name and address. -/
structure Reg where
  id : Nat
  name : List Byte
  addr : BitVec 64
  deriving DecidableEq

/-- The symbols of a name, one for each address, in the order registered. -/
def byName (regs : List Reg) (name : List Byte) : List Nat :=
  (firstOfEach Reg.addr (regs.filter fun r => r.name = name)).map Reg.id

/-- The symbols at an address, one for each name, in the order registered. -/
def byAddr (regs : List Reg) (addr : BitVec 64) : List Nat :=
  (firstOfEach Reg.name (regs.filter fun r => r.addr = addr)).map Reg.id

end Ulp.SymSpec
