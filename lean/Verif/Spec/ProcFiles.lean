/-
The files `/proc/PID/auxv` and `/proc/PID/status` as the kernel writes them
(fs/proc/base.c, fs/proc/array.c).
-/
import Verif.Model.Mem
import Verif.Spec.ProcMaps
namespace Ulp.ProcFiles
open Ulp.MapKind (text)
open Ulp.ProcMaps (decimal)

/-- An entry of the auxiliary vector: type and value, little endian. -/
def auxvBytes (es : List (BitVec 64 × BitVec 64)) : List Byte :=
  es.flatMap fun e => leBytes 8 e.1 ++ leBytes 8 e.2

/-- `v` is the value of the last entry of type `k`. -/
def Last (es : List (BitVec 64 × BitVec 64)) (k v : BitVec 64) : Prop :=
  ∃ l r, es = l ++ (k, v) :: r ∧ ∀ e ∈ r, e.1 ≠ k

/-- getauxval(3) -/
def AT_PHDR : BitVec 64 := 3
def AT_PHENT : BitVec 64 := 4
def AT_PHNUM : BitVec 64 := 5
def AT_BASE : BitVec 64 := 7
def AT_ENTRY : BitVec 64 := 9

/-- `Uid:` or `Gid:` with its four numbers, separated by tabs. -/
def idLine (key : String) (a b c d : Nat) : List Byte :=
  text key ++ text ":\t" ++ decimal a ++ text "\t" ++ decimal b ++ text "\t" ++ decimal c ++ text "\t" ++
    decimal d ++ text "\n"

/-- Lines of a text file. -/
def lines (l : List (List Byte)) : List Byte := l.flatMap fun x => x ++ text "\n"

/-- A line about something else: either short, and it does not begin with one of the
two keys; or of any length, and it contains neither of them. -/
def Other (l : List Byte) : Prop :=
  (10 : Byte) ∉ l ∧
    ((l.length ≤ 1022 ∧ ¬ text "Uid:" <+: l ∧ ¬ text "Gid:" <+: l) ∨
      (¬ text "Uid:" <:+: l ∧ ¬ text "Gid:" <:+: l))

end Ulp.ProcFiles
