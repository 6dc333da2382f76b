/-
Which mapping of a process a segment of a file gave rise to.
-/
import Verif.Spec.ElfHdr
namespace Ulp.ElfHdr

/-- The part of the file that the dynamic linker protects after relocation
(`PT_GNU_RELRO`). -/
def Seg.relro (s : Seg) : Prop := s.type = 0x6474e552

/-- `a` is the start of the page that the address `x` is in. -/
def PageOf (k x a : Nat) : Prop := 2 ^ k ∣ a ∧ a ≤ x ∧ x < a + 2 ^ k

/-- `b` is the first page boundary that is not below `x`. -/
def PageEnd (k x b : Nat) : Prop := 2 ^ k ∣ b ∧ x ≤ b ∧ b < x + 2 ^ k

/-- With pages of `2 ^ k` bytes, `start` to `stop` are the pages of those bytes of the
segment that are in the file, loaded with `bias`. -/
def Seg.Pages (k bias : Nat) (s : Seg) (start stop : Nat) : Prop :=
  PageOf k (bias + s.vaddr.toNat) start ∧ PageEnd k (bias + s.vaddr.toNat + s.filesz.toNat) stop

/-- The memory has the protection that the segment asks for: read, write and execute are
bits 0, 1, 2 of the protection and bits 2, 1, 0 of the segment. -/
def Seg.Prot (s : Seg) (prot : BitVec 32) : Prop :=
  s.flags.getLsbD 2 = prot.getLsbD 0 ∧ s.flags.getLsbD 1 = prot.getLsbD 1 ∧
    s.flags.getLsbD 0 = prot.getLsbD 2

/-- `s` is the last one of the list with the property. -/
def LastOf {α : Type} (P : α → Prop) (l : List α) (s : α) : Prop :=
  ∃ a b, l = a ++ s :: b ∧ P s ∧ ∀ t ∈ b, ¬ P t

end Ulp.ElfHdr
