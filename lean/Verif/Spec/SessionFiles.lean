/-
Specification: the general information about a process that ultask should print.
-/
import Verif.Spec.ProcMaps
import Verif.Spec.Listing
namespace Ulp.SessionSpec
open Ulp.MapKind (text)
open Ulp.ProcMaps (decimal hex)
open Ulp.ListingSpec (left)

/-- Name, executable, number and kind of a process, and how many patches it has, if any. -/
def general (comm exe : List Byte) (pid : Nat) (pie : Bool) (patches : Nat) : List Byte :=
  text "Command: " ++ left 32 comm ++ text "\n" ++
  text "Exe:     " ++ left 32 exe ++ text "\n" ++
  text "Pid:     " ++ left 32 (decimal pid) ++ text "\n" ++
  text "PIE:     " ++ left 32 (text (if pie then "YES" else "NO")) ++ text "\n" ++
  (if patches = 0 then [] else text "Patched: YES (num " ++ decimal patches ++ text ")\n")

/-- What is added on demand: the flags, and the descriptor of the memory. -/
def details (flags : BitVec 32) (fd : Nat) : List Byte :=
  text "FTO:     " ++ left 32 (hex flags.toNat) ++ text "\n" ++
  text "MemFD:   " ++ left 32 (decimal fd) ++ text "\n"

end Ulp.SessionSpec
