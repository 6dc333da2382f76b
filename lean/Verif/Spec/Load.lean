/-
Specifications for preparing a patch image: which sections are relocated and in
which order, and what a symbol's value must become.
-/
import Verif.Model.Load
namespace Ulp.LoadSpec
open Ulp.Load

/-- The section a relocation section applies to exists and is loadable
(`SHF_ALLOC`, bit 1 of `sh_flags`). -/
def Loadable (secs : List Shdr) (s : Shdr) : Prop :=
  ∃ t, secs[s.info]? = some t ∧ t.flags.getLsbD 1 = true

/-- `i` is a relocation section of ELF type `type` (4 is RELA, 9 is REL) for a
loadable section. -/
def Reloc (secs : List Shdr) (type i : Nat) : Prop :=
  ∃ s, secs[i]? = some s ∧ s.type = type ∧ Loadable secs s

/-- `st'` results from `st` by running `arch` on the given sections, in that
order, every run being successful. -/
inductive Runs {σ : Type} (arch : Nat → σ → Option (σ × Int)) : List Nat → σ → σ → Prop
  | nil {st} : Runs arch [] st st
  | cons {i is st st' st'' e} : arch i st = some (st', e) → 0 ≤ e → Runs arch is st' st'' →
      Runs arch (i :: is) st st''

/-- The value symbol `s` must have after loading: absolute and common symbols
are untouched, an undefined one gets the address it has in the target (if it has
one), any other the target address of its section plus its offset. -/
def SymValue (secs : List Shdr) (resolve : List Byte → BitVec 64) (s : PSym) (v : BitVec 64) : Prop :=
  (s.shndx = 0xfff1 ∨ s.shndx = 0xfff2 → v = s.value) ∧
  (s.shndx = 0 → resolve s.name ≠ 0 → v = resolve s.name) ∧
  (s.shndx = 0 → resolve s.name = 0 → v = s.value) ∧
  (s.shndx ≠ 0 → s.shndx ≠ 0xfff1 → s.shndx ≠ 0xfff2 →
    ∃ h, secs[s.shndx]? = some h ∧ v = h.addr + s.value)

/-- A symbol that must make the patch fail: undefined, not weak and not in the
target, or common (other than LTO markers). -/
def Bad (resolve : List Byte → BitVec 64) (s : PSym) : Prop :=
  (s.shndx = 0 ∧ s.bind ≠ 2 ∧ resolve s.name = 0) ∨
  (s.shndx = 0xfff2 ∧ ¬ (lit "__gnu_lto" <+: s.name))

/-- An undefined symbol that was found in the target. -/
def Resolved (resolve : List Byte → BitVec 64) (s : PSym) : Prop :=
  s.shndx = 0 ∧ resolve s.name ≠ 0

end Ulp.LoadSpec
