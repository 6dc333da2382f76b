/-
Specification: which bytes of a process the commands may change.
-/
import Verif.Spec.FileHist
namespace Ulp.LoadBytes

/-- `x` is one of the `n` bytes at `a`. -/
def Within (x a : Addr) (n : Nat) : Prop := ∃ i, i < n ∧ x = a + BitVec.ofNat 64 i

/-- Where the system call says that it has mapped the file. -/
def MapsAt (e : Patch.PatchEnv) (a : Addr) : Prop := e.mmap = .created a ∨ e.mmap = .errno a

/-- The file names a function of the process, and `t` is its address.  What the name is can be
seen from the file only if the file is well made. -/
def NamesFunction (width : Nat → Nat) (find : List Byte → Option (BitVec 64)) (f : List Byte) (t : Addr) : Prop :=
  (∃ n, find n = some t) ∧ ∀ p, WellMade width f p → find p.dst = some t

/-- What a command that fails has mapped is unmapped again. -/
def CleansUp (e : Patch.PatchEnv) : Prop := e.CleanupOk ∧ ∀ a, e.mmap ≠ .inject (some a)

/-- The memory where a command maps its file. -/
inductive FileCmd.Area : FileCmd → Addr → Prop
  | patch {rd hdr find now f e a x} : MapsAt e a → Within x a f.length → Area (.patch rd hdr find now f e) x
  | trace {rd hdr find now func f e d a x} : MapsAt e a → Within x a f.length →
      Area (.trace rd hdr find now func f e d) x

/-- The functions whose first bytes a command replaces. -/
inductive FileCmd.Function (width : Nat → Nat) : FileCmd → Addr → Prop
  | patch {rd hdr find now f e t} : NamesFunction width find f t → Function width (.patch rd hdr find now f e) t
  | trace {rd hdr find now func f e d t} : NamesFunction width find f t →
      Function width (.trace rd hdr find now func f e d) t

/-- A command that fails may leave its file in the process, with the record that was in the
file; `t` is the address in it. -/
inductive FileCmd.Leftover : FileCmd → Addr → Prop
  | patch {rd hdr find now f e} : ¬ CleansUp e → Leftover (.patch rd hdr find now f e) e.info0.virt
  | trace {rd hdr find now func f e d} : ¬ CleansUp e → Leftover (.trace rd hdr find now func f e d) e.info0.virt

/-- The record in the file has 16 bytes for the replaced code. -/
def FileCmd.Record : FileCmd → Prop
  | .patch _ _ _ _ _ e => e.info0.orig.length = 16
  | .trace _ _ _ _ _ _ e _ => e.info0.orig.length = 16
  | .unpatch _ _ => True

end Ulp.LoadBytes
