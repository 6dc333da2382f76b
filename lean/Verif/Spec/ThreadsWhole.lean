/-
Specification: where threads go is there.  As long as a function goes on in a replacement, the file of that
patch is mapped and its image is complete.
-/
import Verif.Spec.ThreadsHist
namespace Ulp.ThreadsHist
open Threads (Proc Mode Redirect)

/-- `x` is one of the `n` addresses from `a` on. -/
def Within (a : Addr) (n : Nat) (x : Addr) : Prop := (x - a).toNat < n

/-- The files are mapped apart from each other, as long as they are there, and from the exchanged bytes, and an
image fits into its mapping; `rs` are the mappings of the patches that are there, the newest first. -/
def Roomy (F : List Addr) : List (Addr × Nat) → List Cmd → Prop
  | _, [] => True
  | rs, .patch _ _ start img len _ :: l =>
    img.length ≤ len ∧ len ≤ 2 ^ 64 ∧ (∀ x, Within start len x → ¬ InWindow F x) ∧
    (∀ r ∈ rs, ∀ x, Within start len x → ¬ Within r.1 r.2 x) ∧ Roomy F ((start, len) :: rs) l
  | [], .unpatch :: l => Roomy F [] l
  | _ :: rs, .unpatch :: l => Roomy F rs l

/-- `x` belongs to a mapping of one of the commands. -/
def Owned (cs : List Cmd) (x : Addr) : Prop := ∃ f p start img len keep, Cmd.patch f p start img len keep ∈ cs ∧ Within start len x

/-- The threads do not write to the mappings of the commands. -/
def QuietRun {I : Isa} {arch : Arch} (R : Redirect I arch) (F : List Addr) (cs : List Cmd) : Ideal I → List Act → Prop
  | _, [] => True
  | s, a :: l =>
    ∀ t, s.act R F a = some t →
      (match a with | .run _ => ∀ x, Owned cs x → t.proc.mem x = s.proc.mem x | _ => True) ∧ QuietRun R F cs t l

/-- The replacement that the function at `f` goes on in, `p`, belongs to a patch for `f` whose file is mapped and
whose image is complete. -/
def Ready (cs : List Cmd) (m : Mem) (mapped : Addr → Bool) (f p : Addr) : Prop :=
  ∃ start img len keep, Cmd.patch f p start img len keep ∈ cs ∧ m.read start img.length = img ∧
    ∀ x, Within start len x → mapped x = true

end Ulp.ThreadsHist
