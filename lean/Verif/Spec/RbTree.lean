/-
What it means for memory to hold a red-black tree.
-/
import Verif.Model.RbTree
namespace Ulp.Rb

/-- A binary tree of node pointers with colours; `true` is black. -/
inductive Tree where
  | leaf
  | node (c : Bool) (l : Tree) (i : Nat) (r : Tree)
  deriving DecidableEq, Repr

namespace Tree

/-- The pointer to the root of the tree; NULL if it is empty. -/
def ptr : Tree → Nat
  | leaf => 0
  | node _ _ i _ => i

/-- The nodes from left to right. -/
def ids : Tree → List Nat
  | leaf => []
  | node _ l i r => ids l ++ i :: ids r

/-- The nodes with every node after its children. -/
def post : Tree → List Nat
  | leaf => []
  | node _ l i r => post l ++ post r ++ [i]

/-- The number of nodes on the longest path down. -/
def height : Tree → Nat
  | leaf => 0
  | node _ l _ r => max (height l) (height r) + 1

def isRed : Tree → Bool
  | leaf => false
  | node c _ _ _ => !c

end Tree
open Tree

/-- The tree `t`, under the parent `par`, is in memory: every node has the
colour, the children and the parent that the tree says. -/
def Rep (m : Nat → Option RbNode) : Nat → Tree → Prop
  | _, leaf => True
  | par, node c l i r => i ≠ 0 ∧ m i = some ⟨par, c, ptr l, ptr r⟩ ∧ Rep m i l ∧ Rep m i r

/-- Every path down from the root of `t` meets `n` black nodes. -/
def BH : Tree → Nat → Prop
  | leaf, n => n = 0
  | node true l _ r, n => ∃ m, n = m + 1 ∧ BH l m ∧ BH r m
  | node false l _ r, n => BH l n ∧ BH r n

/-- No red node has a red child. -/
def NRR : Tree → Prop
  | leaf => True
  | node c l _ r => NRR l ∧ NRR r ∧ (c = false → l.isRed = false ∧ r.isRed = false)

/-- The rules of a red-black tree: the root is black, no red node has a red
child, every path meets the same number of black nodes. -/
def RB (t : Tree) : Prop := t.isRed = false ∧ NRR t ∧ ∃ n, BH t n

/-- The memory holds the tree `t`, reachable from the root pointer, and no node
is in it twice. -/
structure IsTree (s : St) (t : Tree) : Prop where
  root : s.root = ptr t
  rep : Rep s.m 0 t
  nodup : (ids t).Nodup

/-- `f` is negative, zero or positive as the key looked for comes before, at or
after a node: along the tree from left to right it is first positive, then zero,
then negative. -/
def Mono (f : Nat → Int) (l : List Nat) : Prop :=
  l.Pairwise fun a b => (f a < 0 → f b < 0) ∧ (f b > 0 → f a > 0)

end Ulp.Rb
