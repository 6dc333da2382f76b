/-
Specification: what typed command lines of `ulpinfo` ask for, by the help text
(`Verif.Spec.Getopt`).
-/
import Verif.Model.InfoShell
import Verif.Spec.Shell
import Verif.Props.InfoCli
namespace Ulp.InfoShell
open Getopt (Word Prog)
open Cli (AOpt)
open Shell (plain)

/-- The words write options of `ulpinfo`, none of which ends the program and none of which is `-i`;
the last `-p` names `p`. -/
def Asks (posix : Bool) (ws : List Word) (os : List AOpt) (p : BitVec 32) : Prop :=
  Prog.ulpinfo.Spelled posix ws os ∧ (∀ o ∈ os.map plain, o.ofInfo = true) ∧ Cli.lastFile (os.map plain) = none ∧
    Sys.pidOf (os.map plain) = some p ∧ p ≠ 0

/-- The same with a file: the last `-i` names `f`. -/
def AsksFile (posix : Bool) (ws : List Word) (os : List AOpt) (f : PFile.Path) : Prop :=
  Prog.ulpinfo.Spelled posix ws os ∧ (∀ o ∈ os.map plain, o.ofInfo = true) ∧
    Cli.lastFile (os.map plain) = some (.patch f)

/-- There is a `-v` or `--verbose`. -/
def Wordy (os : List AOpt) : Prop := ∃ n, .verbose n ∈ os

/-- The process can be opened, and the mappings of the patches `st` can be read as far as they go,
which is not less than the files. -/
structure Reads (c : Circ) (st : List LoadBytes.LiveFile) : Prop where
  starts : c.starts = true
  opens : c.opens = true
  len : ∀ v ∈ st, v.file.length ≤ c.len v.start ∧ c.len v.start < 2 ^ 64
  gets : ∀ v ∈ st, ∀ n, n ≤ c.len v.start → c.gets v.start n = some n

end Ulp.InfoShell
