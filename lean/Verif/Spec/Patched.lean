/-
Specification: the memory of a process with a patch in it.
-/
import Verif.Model.Mem
namespace Ulp.PatchFile

/-- The memory `m` of a process has become `m1`: the image `g` is at `a`, but with
the 16 bytes of code that were at `t` in the record (at `rec` in the image), and
nothing is changed outside the image and these 16 bytes. -/
structure Patched (g : List Byte) (rec : Nat) (a t : Addr) (m m1 : Mem) : Prop where
  image : ∀ (k : Nat) (b : Byte), g[k]? = some b → ¬ (rec + 28 ≤ k ∧ k < rec + 44) →
    m1 (a + BitVec.ofNat 64 k) = b
  saved : ∀ j, j < 16 → m1 (a + BitVec.ofNat 64 (rec + 28 + j)) = m (t + BitVec.ofNat 64 j)
  frame : ∀ x, (∀ k, k < g.length → x ≠ a + BitVec.ofNat 64 k) →
    (∀ j, j < 16 → x ≠ t + BitVec.ofNat 64 j) → m1 x = m x

end Ulp.PatchFile
