/-
Specification: a kernel that maps files.
-/
import Verif.Spec.TaskDo
namespace Ulp.TaskRun
open Ulp.Linux
open Ulp.Ultask (Kern Req int)

/-- There is room for `len` bytes in the lower half of the address space. -/
def Room (pg : Nat) (s : State) (len : Nat) : Prop := ∃ a, 0 < a ∧ a < 2 ^ 63 ∧ a % pg = 0 ∧ Free pg s a len

/-- The kernel opens a file if one of 1024 descriptors is free, gives it any length, and maps it
if there is room. -/
def GrantsMap (pg : Nat) (k : Kern (Proc State)) : Prop :=
  (∀ p path, (∃ n, n < 1024 ∧ BitVec.ofNat 32 n ∉ p.w.fds) → 0 ≤ int (k.ask p (.open path 2)).2) ∧
  (∀ p fd len, 0 ≤ len.toInt → int (k.ask p (.ftruncate fd len)).2 = 0) ∧
  ∀ p hint len prot fd, hint.toNat < 2 ^ 63 → 0 < len.toNat → Room pg p.w len.toNat →
    ¬ IsErr (k.ask p (.mmap hint len prot 2 fd 0)).2 ∧ (k.ask p (.mmap hint len prot 2 fd 0)).2 ≠ 0

end Ulp.TaskRun
