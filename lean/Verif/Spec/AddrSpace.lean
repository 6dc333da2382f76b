/-
Specification: the address space of a process under Linux, and what the system calls
that change it promise (mmap(2), munmap(2), mprotect(2), ftruncate(2), ptrace(2)).
Independent of the ulpatch sources.

A page is named by its number; `pg` is the size of a page.  One file matters, the one
being mapped; of it only the size is kept.
-/
import Verif.Model.Mem
namespace Ulp.Linux

/-- A mapped page: its protection and what it shows. -/
structure Page where
  prot : BitVec 32
  obj : Nat
  deriving DecidableEq

/-- The address space, the size of the file, the open descriptors that the tool made,
and whether the process is stopped by a tracer. -/
structure State where
  space : Nat → Option Page
  file : Nat
  fds : List (BitVec 32)
  stopped : Bool

/-- The page is one of those that `[addr, addr + len)` touches. -/
def Touches (pg addr len p : Nat) : Prop := addr / pg ≤ p ∧ p < (addr + len + pg - 1) / pg

instance (pg addr len p : Nat) : Decidable (Touches pg addr len p) := inferInstanceAs (Decidable (_ ∧ _))

/-- No page of the region is mapped. -/
def Free (pg : Nat) (s : State) (addr len : Nat) : Prop := ∀ p, Touches pg addr len p → s.space p = none

/-- Every page of the region is mapped. -/
def Mapped (pg : Nat) (s : State) (addr len : Nat) : Prop := ∀ p, Touches pg addr len p → s.space p ≠ none

/-- An error: the values -4095 to -1. -/
def IsErr (v : BitVec 64) : Prop := -4095 ≤ v.toInt ∧ v.toInt < 0

/-- The pages of a region become something else, all other pages stay. -/
def State.change (pg : Nat) (s : State) (addr len : Nat) (f : Nat → Option Page → Option Page) : State :=
  { s with space := fun p => if Touches pg addr len p then f p (s.space p) else s.space p }

/-- `munmap(addr, len)` succeeds. -/
def Unmapped (pg : Nat) (s s' : State) (addr len : Nat) : Prop :=
  addr % pg = 0 ∧ 0 < len ∧ s' = s.change pg addr len fun _ _ => none

/-- `mprotect(addr, len, prot)` succeeds. -/
def Protected (pg : Nat) (s s' : State) (addr len : Nat) (prot : BitVec 32) : Prop :=
  addr % pg = 0 ∧ Mapped pg s addr len ∧ s' = s.change pg addr len fun _ q => q.map fun q => { q with prot := prot }

/-- `mprotect` fails: it may have changed some of the pages. -/
def PartProtected (pg : Nat) (s s' : State) (addr len : Nat) (prot : BitVec 32) : Prop :=
  ∃ done : Nat → Bool,
    s' = s.change pg addr len fun p q => if done p then q.map fun q => { q with prot := prot } else q

/-- `mmap(hint, len, prot, MAP_PRIVATE, fd, 0)` succeeds at `addr`: free pages, and the
hint itself if it is the beginning of a page and there is room for the region. -/
def NewMap (pg : Nat) (s s' : State) (hint addr len : Nat) (prot : BitVec 32) : Prop :=
  0 < len ∧ 0 < addr ∧ addr % pg = 0 ∧ Free pg s addr len ∧
    (hint ≠ 0 → hint % pg = 0 → Free pg s hint len → addr = hint) ∧
    ∃ obj : Nat → Nat, s' = s.change pg addr len fun p _ => some ⟨prot, obj p⟩

end Ulp.Linux
