/-
Specification: strings and words in memory.
-/
import Verif.Model.Mem
namespace Ulp.TaskMemSpec

/-- The string `t`, without its NUL, is in memory at `a`. -/
def StringAt (m : Mem) (a : Addr) (t : List Byte) : Prop :=
  (∀ i b, t[i]? = some b → m (a + BitVec.ofNat 64 i) = b ∧ b ≠ 0) ∧
    m (a + BitVec.ofNat 64 t.length) = 0

/-- The 32-bit number at `a`, least significant byte first. -/
def wordAt (m : Mem) (a : Addr) : BitVec 32 :=
  m (a + 3) ++ m (a + 2) ++ m (a + 1) ++ m a

/-- Two memories agree except on the `n` bytes at `a`. -/
def SameBut (m m' : Mem) (a : Addr) (n : Nat) : Prop := ∀ x, n ≤ (x - a).toNat → m' x = m x

/-- Memory is mapped in pages of 4096 bytes. -/
def Paged (mapped : Addr → Bool) : Prop :=
  ∀ x y : Addr, x.toNat / 4096 = y.toNat / 4096 → mapped x = mapped y

/-- A64 `BL`: the upper six bits are 100101 (Arm ARM, C6.2.33). -/
def IsBl (w : BitVec 32) : Prop := w.extractLsb' 26 6 = 0b100101

end Ulp.TaskMemSpec
