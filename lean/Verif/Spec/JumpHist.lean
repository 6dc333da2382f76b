/-
Specification: patches and jumps in one process.
-/
import Verif.Model.JumpHist
import Verif.Spec.FileHist
namespace Ulp.LoadBytes

/-- The jumps that were written, oldest first: the runs of `ultask --jmp` that had an address to
jump from and one to jump to, and that reported no error. -/
def jumps (arch : Arch) : List Step → List Int → List Overlay
  | .jump _ src dst _ _ :: ss, r :: rs =>
    if r = 0 ∧ src ≠ 0 ∧ dst ≠ 0 then ⟨src, jmpEntry arch dst⟩ :: jumps arch ss rs else jumps arch ss rs
  | .cmd _ :: ss, _ :: rs => jumps arch ss rs
  | _, _ => []

/-- What the other commands do, by their results, to the list of live patches (`Does`); jumps
do nothing to it. -/
inductive StepsDo : List LiveFile → List Step → List Int → List LiveFile → Prop
  | nil {st} : StepsDo st [] [] st
  | cmd {st st' st'' c r ss rs} : Does st c r st' → StepsDo st' ss rs st'' →
      StepsDo st (.cmd c :: ss) (r :: rs) st''
  | jump {st st' vs src dst rd wr r ss rs} : StepsDo st ss rs st' →
      StepsDo st (.jump vs src dst rd wr :: ss) (r :: rs) st'

/-- The 16 bytes at `a` and the 16 bytes at `b` have no byte in common. -/
def Clear (a b : Addr) : Prop := ∀ i j, i < 16 → j < 16 → a + BitVec.ofNat 64 i ≠ b + BitVec.ofNat 64 j

/-- A jump that stays away from the patches: the tree of memory areas can be searched; the
16 bytes of the jump are written all or nothing; they are not where patches may be mapped, and not
at a function that a live patch replaces. -/
def GoodStep (width : Nat → Nat) (R : Addr → Prop) (w : Patch.World) : Step → Prop
  | .cmd c => GoodFile width R w c
  | .jump vs src dst _ wr => (Vma.findVma vs src).isSome ∧ (Vma.findVma vs dst).isSome ∧
      (wr = none ∨ wr = some 0 ∨ wr = some 16) ∧ WindowOff R src 16 ∧ ∀ m ∈ w.maps, Clear src m.info.virt

/-- `GoodStep` for runs one after the other. -/
def GoodSteps (M : Machine) (width : Nat → Nat) (R : Addr → Prop) : Patch.World → List Step → Prop
  | _, [] => True
  | w, s :: ss => GoodStep width R w s ∧ ∀ w' r, runStep M w s = some (w', r) → GoodSteps M width R w' ss

end Ulp.LoadBytes
