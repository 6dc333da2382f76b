/-
Specification: how a Linux process answers the requests of the tool.  Any behaviour
that is allowed here may happen: every request may fail, and `mmap` may choose the
place.
-/
import Verif.Model.Ultask
import Verif.Spec.AddrSpace
namespace Ulp.Linux
open Ulp.Ultask (Req Kern int)

/-- The answers the kernel may give: the state after it, and the value. -/
def Answers (pg : Nat) (s : State) : Req → State → BitVec 64 → Prop
  | .attach, s', v => (int v = 0 ∧ s.stopped = false ∧ s' = { s with stopped := true }) ∨ (int v ≠ 0 ∧ s' = s)
  | .detach, s', _ => s' = { s with stopped := false }
  | .open _ _, s', v =>
    (0 ≤ int v ∧ v.setWidth 32 ∉ s.fds ∧ s' = { s with fds := v.setWidth 32 :: s.fds }) ∨ (int v < 0 ∧ s' = s)
  | .ftruncate _ len, s', v => (int v = 0 ∧ 0 ≤ len.toInt ∧ s' = { s with file := len.toNat }) ∨ s' = s
  | .mmap hint len prot _ _ _, s', v =>
    (¬ IsErr v ∧ NewMap pg s s' hint.toNat v.toNat len.toNat prot) ∨ ((IsErr v ∨ v = 0) ∧ s' = s)
  | .mprotect addr len prot, s', v =>
    (int v = 0 ∧ Protected pg s s' addr.toNat len.toNat prot) ∨
      (int v ≠ 0 ∧ PartProtected pg s s' addr.toNat len.toNat prot)
  | .munmap addr len, s', v => (int v = 0 ∧ Unmapped pg s s' addr.toNat len.toNat) ∨ (int v ≠ 0 ∧ s' = s)
  | .close fd, s', _ => s' = { s with fds := s.fds.erase fd }

/-- A kernel that gives only such answers. -/
def Lawful (pg : Nat) (k : Kern State) : Prop := ∀ s q, Answers pg s q (k.ask s q).1 (k.ask s q).2

end Ulp.Linux
